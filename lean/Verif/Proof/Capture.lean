import Verif.Spec.Capture

namespace Abq.Capture
open Abq.Spec

/-! ## Interleavings -/

theorem Merge.append_left {α : Type} {a b c : List α} (h : Merge a b c) (l : List α) : Merge (a ++ l) b (c ++ l) := by
  induction h with
  | nil =>
    induction l with
    | nil => exact .nil
    | cons x l ih => exact .left x ih
  | left x _ ih => exact .left x ih
  | right x _ ih => exact .right x ih

theorem Merge.append_right {α : Type} {a b c : List α} (h : Merge a b c) (l : List α) : Merge a (b ++ l) (c ++ l) := by
  induction h with
  | nil =>
    induction l with
    | nil => exact .nil
    | cons x l ih => exact .right x ih
  | left x _ ih => exact .left x ih
  | right x _ ih => exact .right x ih

/-! ## One stream -/

/-- The stream `s`, after the bytes `W` were to be captured and the bytes `T` were taken. -/
structure SInv (W T : List Byte) (s : Stream) : Prop where
  bytes : T ++ s.side ++ s.header ++ s.buf ++ s.pipe = W
  order : s.header ≠ [] → s.buf = []
  fwd : s.piped = true → s.forwarded = T ++ s.side
  ended : s.task = .ok → s.closed = true ∧ s.header = [] ∧ s.buf = [] ∧ s.pipe = []

theorem SInv.write {W T : List Byte} {s : Stream} (h : SInv W T s) (ans : Ans) : SInv W T (s.write ans).2 := by
  obtain ⟨h1, h2, h3, h4⟩ := h
  unfold Stream.write
  split
  · exact ⟨h1, h2, h3, h4⟩
  · rename_i hrun
    simp only [ne_eq, Decidable.not_not] at hrun
    split
    · rename_i hh
      have hb := h2 hh
      split
      · exact ⟨h1, h2, h3, by simp⟩
      · rename_i n _
        refine ⟨?_, ?_, ?_, ?_⟩
        · rw [← h1]
          simp only [List.append_assoc]
          rw [List.append_cancel_left_eq, List.append_cancel_left_eq, ← List.append_assoc, List.take_append_drop]
        · intro _; exact hb
        · intro hp
          simp only at hp ⊢
          simp [hp, h3 hp, List.append_assoc]
        · intro ht; simp only at ht; rw [hrun] at ht; cases ht
    · rename_i hh
      simp only [ne_eq, Decidable.not_not] at hh
      split
      · split
        · exact ⟨h1, h2, h3, h4⟩
        · exact ⟨h1, h2, h3, by simp⟩
      · rename_i n _
        refine ⟨?_, ?_, ?_, ?_⟩
        · rw [← h1]
          simp only [hh, List.append_assoc, List.nil_append]
          rw [List.append_cancel_left_eq, List.append_cancel_left_eq, ← List.append_assoc, List.take_append_drop]
        · intro hne; exact absurd hh hne
        · intro hp
          simp only at hp ⊢
          simp [hp, h3 hp, List.append_assoc]
        · intro ht; simp only at ht; rw [hrun] at ht; cases ht

/-- What a write adds to the combined channel is what it adds to the stream's own. -/
theorem write_side (s : Stream) (ans : Ans) : (s.write ans).2.side = s.side ++ (s.write ans).1 := by
  unfold Stream.write
  repeat' split
  all_goals simp

theorem write_idle (s : Stream) (ans : Ans) (h : s.holds = false) : s.write ans = ([], s) := by
  unfold Stream.write
  rw [if_pos]
  intro e; rw [Stream.holds, e] at h; cases h

theorem SInv.read {W T : List Byte} {s : Stream} (h : SInv W T s) (n : Option Nat) : SInv W T (s.read n) := by
  obtain ⟨h1, h2, h3, h4⟩ := h
  unfold Stream.read
  split
  · rename_i hc
    cases n with
    | none => exact ⟨h1, h2, h3, by simp⟩
    | some n =>
      refine ⟨?_, fun hne => absurd hc.2 hne, h3, fun ht => ?_⟩
      · rw [← h1]
        simp only [List.append_assoc]
        rw [List.append_cancel_left_eq, List.append_cancel_left_eq, List.append_cancel_left_eq,
          List.append_cancel_left_eq, List.take_append_drop]
      · simp only at ht; rw [hc.1] at ht; cases ht
  · exact ⟨h1, h2, h3, h4⟩

theorem SInv.eof {W T : List Byte} {s : Stream} (h : SInv W T s) : SInv W T s.eof := by
  obtain ⟨h1, h2, h3, h4⟩ := h
  unfold Stream.eof
  split
  · rename_i hc
    exact ⟨h1, h2, h3, fun _ => ⟨hc.2.2.1, hc.2.1, hc.2.2.2.2, hc.2.2.2.1⟩⟩
  · exact ⟨h1, h2, h3, h4⟩

theorem SInv.child {W T : List Byte} {s : Stream} (h : SInv W T s) (bs : List Byte) :
    SInv (W ++ if s.closed then [] else bs) T (s.child bs) := by
  obtain ⟨h1, h2, h3, h4⟩ := h
  unfold Stream.child
  cases hc : s.closed
  · refine ⟨by simp [← h1, List.append_assoc], h2, h3, fun ht => ?_⟩
    have := (h4 ht).1
    rw [hc] at this; cases this
  · simp only [if_true, List.append_nil]
    exact ⟨h1, h2, h3, h4⟩

theorem SInv.childCloses {W T : List Byte} {s : Stream} (h : SInv W T s) : SInv W T { s with closed := true } := by
  obtain ⟨h1, h2, h3, h4⟩ := h
  exact ⟨h1, h2, h3, fun ht => ⟨rfl, (h4 ht).2⟩⟩

theorem SInv.close {W T : List Byte} {s : Stream} (h : SInv W T s) : SInv W T s.close := by
  obtain ⟨h1, h2, h3, h4⟩ := h
  refine ⟨h1, h2, h3, fun ht => ?_⟩
  unfold Stream.close at ht
  simp only at ht
  split at ht
  · cases ht
  · exact h4 ht

theorem SInv.reap {W T : List Byte} {s : Stream} (h : SInv W T s) : SInv W T s.reap := by
  obtain ⟨h1, h2, h3, h4⟩ := h
  unfold Stream.reap
  split
  · exact ⟨h1, h2, h3, by simp⟩
  · exact ⟨h1, h2, h3, h4⟩

theorem SInv.take {W T : List Byte} {s : Stream} (h : SInv W T s) : SInv W (T ++ s.side) { s with side := [] } := by
  obtain ⟨h1, h2, h3, h4⟩ := h
  exact ⟨by simpa [List.append_assoc] using h1, h2, fun hp => by simpa using h3 hp, h4⟩

/-! ## The schedule -/

/-- The bytes a stream gets in one more step. -/
theorem wrote_snoc (w : Which) (as : List Act) (a : Act) :
    wrote w (as ++ [a]) = wrote w as ++ if Act.childCloses w ∈ as then [] else bytesTo w a := by
  unfold wrote
  induction as with
  | nil =>
    by_cases ha : a = Act.childCloses w
    · subst ha; simp [bytesTo]
    · simp [ha]
  | cons b as ih =>
    rw [List.cons_append, List.takeWhile_cons, List.takeWhile_cons]
    by_cases hb : b = Act.childCloses w
    · subst hb; simp
    · have hb' : Act.childCloses w ≠ b := fun e => hb e.symm
      simp only [ne_eq, hb, not_false_eq_true, decide_true, if_true, List.flatMap_cons, List.mem_cons, hb', false_or,
        List.append_assoc]
      rw [← ih]

theorem taken_snoc (w : Which) (evs : List Event) (e : Event) : taken w (evs ++ [e]) = taken w evs ++ takenBy w e := by
  unfold taken; rw [List.flatMap_append]; simp

/-- The invariant of all schedules `as`, from a state in which `H` is to be captured first from the streams. -/
structure Inv (H : Which → List Byte) (as : List Act) (s : St) : Prop where
  streams : ∀ w, SInv (H w ++ wrote w as) (taken w s.events) (s.stream w)
  closed : ∀ w, (s.stream w).closed = true ↔ Act.childCloses w ∈ as
  /-- nothing is aborted unless `close` is called -/
  handle : Act.close ∉ as → ∀ w, (s.stream w).trivialHandle = false ∧ (s.stream w).task ≠ .aborting ∧
    (s.stream w).task ≠ .dropped
  combined : (∀ o e c, Event.finished o e c ∉ s.events) →
    Merge (taken .out s.events ++ s.out.side) (taken .err s.events ++ s.err.side) s.combined
  finished : ∀ o e c, Event.finished o e c ∈ s.events → s.done = true ∧
    Merge (taken .out s.events) (taken .err s.events) c ∧ ∀ w, (s.stream w).holds = false ∧ (s.stream w).side = [] ∧
      (Act.close ∉ as → (s.stream w).task = .ok)
  panicked : Event.panicked ∈ s.events → Act.close ∈ as

theorem Inv.init (piped isRetry : Bool) (hd : List Byte) :
    Inv (fun w => if w = .out ∧ isRetry = true then hd else []) [] (init piped isRetry hd) := by
  constructor
  · intro w
    cases w <;> cases isRetry <;> constructor <;> simp [Capture.init, St.stream, taken, wrote]
  · intro w; cases w <;> simp [Capture.init, St.stream]
  · intro _ w; cases w <;> simp [Capture.init, St.stream]
  · intro _; simpa [Capture.init, taken] using Merge.nil
  · intro o e c h; simp [Capture.init] at h
  · intro h; simp [Capture.init] at h

theorem stream_set_same (s : St) (w : Which) (t : Stream) : (s.setStream w t).stream w = t := by cases w <;> rfl

theorem stream_set_other (s : St) (w w' : Which) (t : Stream) (h : w' ≠ w) : (s.setStream w t).stream w' = s.stream w' := by
  cases w <;> cases w' <;> first | rfl | exact absurd rfl h

theorem set_rest (s : St) (w : Which) (t : Stream) :
    (s.setStream w t).events = s.events ∧ (s.setStream w t).done = s.done ∧ (s.setStream w t).combined = s.combined := by
  cases w <;> exact ⟨rfl, rfl, rfl⟩

/-- A step of the child, or of a task. -/
theorem Inv.stream_step {H : Which → List Byte} {as : List Act} {s : St} (h : Inv H as s) (a : Act) (w : Which)
    (t : Stream) (delta : List Byte) (ha : a ≠ .close)
    (hother : ∀ w', w' ≠ w → bytesTo w' a = [] ∧ a ≠ .childCloses w')
    (hinv : SInv (H w ++ wrote w (as ++ [a])) (taken w s.events) t)
    (hclosed : t.closed = true ↔ (s.stream w).closed = true ∨ a = .childCloses w)
    (htrivial : t.trivialHandle = (s.stream w).trivialHandle)
    (habort : t.task = .aborting ∨ t.task = .dropped → (s.stream w).task = .aborting ∨ (s.stream w).task = .dropped)
    (hside : t.side = (s.stream w).side ++ delta)
    (hidle : (s.stream w).holds = false → t.holds = false ∧ delta = [])
    (hok : (s.stream w).task = .ok → t.task = .ok) :
    Inv H (as ++ [a]) { s.setStream w t with combined := s.combined ++ delta } := by
  have hst : ∀ w', ({ s.setStream w t with combined := s.combined ++ delta } : St).stream w' =
      if w' = w then t else s.stream w' := by
    intro w'
    by_cases e : w' = w
    · subst e; rw [if_pos rfl]; cases w' <;> rfl
    · rw [if_neg e]; cases w <;> cases w' <;> first | rfl | exact absurd rfl e
  have hev : ({ s.setStream w t with combined := s.combined ++ delta } : St).events = s.events := (set_rest s w t).1
  have hdone : ({ s.setStream w t with combined := s.combined ++ delta } : St).done = s.done := (set_rest s w t).2.1
  have hnc : ∀ {P : Prop}, (Act.close ∉ as ++ [a]) → (Act.close ∉ as → P) → P := by
    intro P hn k
    exact k fun hm => hn (List.mem_append_left _ hm)
  constructor
  · intro w'
    rw [hst, hev]
    by_cases e : w' = w
    · subst e; rw [if_pos rfl]; exact hinv
    · rw [if_neg e, wrote_snoc, (hother w' e).1]
      have := h.streams w'
      simpa using this
  · intro w'
    rw [hst]
    by_cases e : w' = w
    · subst e
      rw [if_pos rfl, hclosed, h.closed w']
      simp [eq_comm]
    · rw [if_neg e, h.closed w']
      have := (hother w' e).2
      simp [Ne.symm this]
  · intro hn w'
    obtain ⟨k1, k2, k3⟩ := hnc hn h.handle w'
    rw [hst]
    by_cases e : w' = w
    · subst e
      rw [if_pos rfl]
      refine ⟨by rw [htrivial]; exact k1, fun ht => ?_, fun ht => ?_⟩
      · rcases habort (.inl ht) with h | h
        · exact k2 h
        · exact k3 h
      · rcases habort (.inr ht) with h | h
        · exact k2 h
        · exact k3 h
    · rw [if_neg e]; exact ⟨k1, k2, k3⟩
  · rw [hev]
    intro hn
    have := h.combined hn
    cases w with
    | out =>
      show Merge (taken .out s.events ++ t.side) (taken .err s.events ++ s.err.side) (s.combined ++ delta)
      rw [hside, ← List.append_assoc]
      exact Merge.append_left this delta
    | err =>
      show Merge (taken .out s.events ++ s.out.side) (taken .err s.events ++ t.side) (s.combined ++ delta)
      rw [hside, ← List.append_assoc]
      exact Merge.append_right this delta
  · rw [hev, hdone]
    intro o e c hm
    obtain ⟨k1, k2, k3⟩ := h.finished o e c hm
    refine ⟨k1, k2, fun w' => ?_⟩
    rw [hst]
    by_cases e : w' = w
    · subst e
      rw [if_pos rfl]
      obtain ⟨a1, a2, a3⟩ := k3 w'
      refine ⟨(hidle a1).1, ?_, fun hn => hok (hnc hn a3)⟩
      rw [hside, a2, (hidle a1).2]; rfl
    · rw [if_neg e]
      obtain ⟨a1, a2, a3⟩ := k3 w'
      exact ⟨a1, a2, fun hn => hnc hn a3⟩
  · rw [hev]
    intro hm
    exact List.mem_append_left _ (h.panicked hm)

theorem setStream_eq (s : St) (w : Which) (t : Stream) :
    s.setStream w t = { s.setStream w t with combined := s.combined ++ [] } := by
  cases w <;> simp [St.setStream]

theorem holds_iff (s : Stream) : s.holds = false ↔ s.task ≠ .running ∧ s.task ≠ .aborting := by
  unfold Stream.holds
  cases s.task <;> simp

theorem wrote_same (w : Which) (as : List Act) (a : Act) (h : ∀ w, bytesTo w a = []) : wrote w (as ++ [a]) = wrote w as := by
  rw [wrote_snoc, h]; simp

/-- An action that changes nothing. -/
theorem Inv.idle {H : Which → List Byte} {as : List Act} {s : St} (h : Inv H as s) (a : Act) (ha : ∀ w, bytesTo w a = [])
    (hc : ∀ w, a ≠ .childCloses w) (hcl : a ≠ .close) : Inv H (as ++ [a]) s := by
  have hnc : ∀ {P : Prop}, (Act.close ∉ as ++ [a]) → (Act.close ∉ as → P) → P := by
    intro P hn k
    exact k fun hm => hn (List.mem_append_left _ hm)
  refine ⟨?_, ?_, fun hn => hnc hn h.handle, h.combined, ?_, fun hm => List.mem_append_left _ (h.panicked hm)⟩
  · intro w; rw [wrote_same _ _ _ ha]; exact h.streams w
  · intro w; rw [h.closed w]; simp [Ne.symm (hc w)]
  · intro o e c hm
    obtain ⟨k1, k2, k3⟩ := h.finished o e c hm
    exact ⟨k1, k2, fun w => ⟨(k3 w).1, (k3 w).2.1, fun hn => hnc hn (k3 w).2.2⟩⟩

theorem taken_nothing (w : Which) (evs : List Event) (e : Event) (h : takenBy w e = []) : taken w (evs ++ [e]) = taken w evs := by
  rw [taken_snoc, h]; simp

/-- No call ended the capture yet. -/
theorem Inv.open_ {H : Which → List Byte} {as : List Act} {s : St} (h : Inv H as s) (hd : s.done = false)
    (o e c : List Byte) : Event.finished o e c ∉ s.events := by
  intro hm
  have := (h.finished o e c hm).1
  rw [hd] at this; cases this

/-- An event that takes nothing. -/
theorem Inv.event {H : Which → List Byte} {as : List Act} {s : St} (h : Inv H as s) (hd : s.done = false) (ev : Event)
    (hf : ∀ o e c, ev ≠ .finished o e c) (ht : ∀ w, takenBy w ev = []) (hp : ev = .panicked → Act.close ∈ as)
    (d : Bool := s.done) : Inv H as { s with done := d, events := s.events ++ [ev] } := by
  refine ⟨?_, h.closed, h.handle, ?_, ?_, ?_⟩
  · intro w
    show SInv _ (taken w (s.events ++ [ev])) _
    rw [taken_nothing _ _ _ (ht w)]
    have := h.streams w
    cases w <;> exact this
  · intro _
    show Merge (taken .out (s.events ++ [ev]) ++ s.out.side) (taken .err (s.events ++ [ev]) ++ s.err.side) s.combined
    rw [taken_nothing _ _ _ (ht .out), taken_nothing _ _ _ (ht .err)]
    exact h.combined (h.open_ hd)
  · intro o e c hm
    rcases List.mem_append.mp hm with hm | hm
    · exact absurd hm (h.open_ hd o e c)
    · rw [List.mem_singleton] at hm
      exact absurd hm.symm (hf o e c)
  · intro hm
    rcases List.mem_append.mp hm with hm | hm
    · exact h.panicked hm
    · rw [List.mem_singleton] at hm
      exact hp hm.symm

/-- `finish` again. -/
theorem Inv.again {H : Which → List Byte} {as : List Act} {s : St} (h : Inv H as s) :
    Inv H as { s with events := s.events ++ [.again] } := by
  have ht : ∀ w, taken w (s.events ++ [.again]) = taken w s.events := fun w => taken_nothing _ _ _ rfl
  refine ⟨?_, h.closed, h.handle, ?_, ?_, ?_⟩
  · intro w
    show SInv _ (taken w (s.events ++ [.again])) _
    rw [ht]
    have := h.streams w
    cases w <;> exact this
  · intro hn
    show Merge (taken .out (s.events ++ [.again]) ++ s.out.side) (taken .err (s.events ++ [.again]) ++ s.err.side) s.combined
    rw [ht, ht]
    exact h.combined fun o e c hm => hn o e c (List.mem_append_left _ hm)
  · intro o e c hm
    have hm : Event.finished o e c ∈ s.events := by simpa using hm
    obtain ⟨k1, k2, k3⟩ := h.finished o e c hm
    refine ⟨k1, ?_, fun w => by cases w <;> first | exact k3 .out | exact k3 .err⟩
    show Merge (taken .out (s.events ++ [.again])) (taken .err (s.events ++ [.again])) c
    rw [ht, ht]
    exact k2
  · intro hm
    exact h.panicked (by simpa using hm)

theorem Inv.getCaptured {H : Which → List Byte} {as : List Act} {s : St} (h : Inv H as s) (hd : s.done = false) :
    Inv H (as ++ [.getCaptured]) { s with out := { s.out with side := [] }, err := { s.err with side := [] },
                                           events := s.events ++ [.captured s.out.side s.err.side] } := by
  have h := h.idle .getCaptured (fun _ => rfl) (by simp) (by simp)
  refine ⟨?_, ?_, ?_, ?_, ?_, ?_⟩
  · intro w
    have := (h.streams w).take
    rw [taken_snoc]
    cases w <;> exact this
  · intro w; rw [← h.closed w]; cases w <;> rfl
  · intro hn w
    have := h.handle hn w
    cases w <;> exact this
  · intro _
    show Merge (taken .out (s.events ++ [_]) ++ []) (taken .err (s.events ++ [_]) ++ []) s.combined
    rw [taken_snoc, taken_snoc, List.append_nil, List.append_nil]
    exact h.combined (h.open_ hd)
  · intro o e c hm
    rcases List.mem_append.mp hm with hm | hm
    · exact absurd hm (h.open_ hd o e c)
    · rw [List.mem_singleton] at hm; cases hm
  · intro hm
    rcases List.mem_append.mp hm with hm | hm
    · exact h.panicked hm
    · rw [List.mem_singleton] at hm; cases hm

theorem Inv.close {H : Which → List Byte} {as : List Act} {s : St} (h : Inv H as s) (hd : s.done = false) :
    Inv H (as ++ [.close]) { s with out := s.out.close, err := s.err.close } := by
  refine ⟨?_, ?_, fun hn => absurd (by simp) hn, ?_, ?_, fun _ => by simp⟩
  · intro w
    rw [wrote_same _ _ _ (fun _ => rfl)]
    have := (h.streams w).close
    cases w <;> exact this
  · intro w
    have : ((s.stream w).close).closed = true ↔ Act.childCloses w ∈ as := h.closed w
    cases w <;> (refine Iff.trans this ?_; simp)
  · intro _; exact h.combined (h.open_ hd)
  · intro o e c hm; exact absurd hm (h.open_ hd o e c)

theorem awaited_ready {s : Stream} (h : s.awaited = .ready) : s.trivialHandle = true ∨ s.task = .ok := by
  unfold Stream.awaited at h
  cases ht : s.trivialHandle
  · rw [ht] at h
    cases hk : s.task <;> rw [hk] at h <;> simp at h
    exact .inr rfl
  · exact .inl rfl

theorem Inv.finishes {H : Which → List Byte} {as : List Act} {s : St} (h : Inv H as s) (hd : s.done = false) :
    Inv H as s.finish := by
  unfold St.finish
  have herr := h.event hd .failed (by simp) (fun w => rfl) (fun e => by cases e) true
  split
  · exact h
  · exact herr
  · rename_i ho
    split
    · exact h
    · exact herr
    · rename_i he
      have hok : Act.close ∉ as → ∀ w, (s.stream w).task = .ok := by
        intro hn w
        have hh := (h.handle hn w).1
        cases w with
        | out => rcases awaited_ready ho with k | k
                 · rw [show s.out.trivialHandle = false from hh] at k; cases k
                 · exact k
        | err => rcases awaited_ready he with k | k
                 · rw [show s.err.trivialHandle = false from hh] at k; cases k
                 · exact k
      by_cases hh : (s.out.holds || s.err.holds) = true
      · rw [if_pos hh]
        refine h.event hd .panicked (by simp) (fun w => rfl) (fun _ => ?_) true
        by_cases hn : Act.close ∈ as
        · exact hn
        · exfalso
          have k1 := hok hn .out
          have k2 := hok hn .err
          simp only [St.stream] at k1 k2
          simp [Stream.holds, k1, k2] at hh
      · rw [if_neg hh]
        simp only [Bool.or_eq_true, not_or, Bool.not_eq_true] at hh
        refine ⟨?_, ?_, ?_, ?_, ?_, ?_⟩
        · intro w
          have := (h.streams w).take
          rw [taken_snoc]
          cases w <;> exact this
        · intro w; rw [← h.closed w]; cases w <;> rfl
        · intro hn w
          have := h.handle hn w
          cases w <;> exact this
        · intro hn
          exact absurd (by simp) (hn s.out.side s.err.side s.combined)
        · intro o e c hm
          rcases List.mem_append.mp hm with hm | hm
          · exact absurd hm (h.open_ hd o e c)
          · rw [List.mem_singleton] at hm
            cases hm
            refine ⟨rfl, ?_, fun w => ?_⟩
            · show Merge (taken .out (s.events ++ [_])) (taken .err (s.events ++ [_])) s.combined
              rw [taken_snoc, taken_snoc]
              exact h.combined (h.open_ hd)
            · have k1 := hok
              cases w with
              | out => exact ⟨hh.1, rfl, fun hn => hok hn .out⟩
              | err => exact ⟨hh.2, rfl, fun hn => hok hn .err⟩
        · intro hm
          rcases List.mem_append.mp hm with hm | hm
          · exact h.panicked hm
          · rw [List.mem_singleton] at hm; cases hm

theorem Inv.step {H : Which → List Byte} {as : List Act} {s : St} (h : Inv H as s) (a : Act) :
    Inv H (as ++ [a]) (s.step a) := by
  cases a with
  | child w bs =>
    have hs : wrote w (as ++ [.child w bs]) = wrote w as ++ if (s.stream w).closed then [] else bs := by
      rw [wrote_snoc]
      by_cases hm : Act.childCloses w ∈ as
      · rw [if_pos hm, if_pos ((h.closed w).mpr hm)]
      · rw [if_neg hm, if_neg (fun hc => hm ((h.closed w).mp hc))]
        simp [bytesTo]
    have hf : ((s.stream w).child bs).task = (s.stream w).task ∧ ((s.stream w).child bs).closed = (s.stream w).closed ∧
        ((s.stream w).child bs).side = (s.stream w).side ∧
        ((s.stream w).child bs).trivialHandle = (s.stream w).trivialHandle := by
      unfold Stream.child; split <;> exact ⟨rfl, rfl, rfl, rfl⟩
    show Inv H _ (s.setStream w ((s.stream w).child bs))
    rw [setStream_eq]
    refine h.stream_step (.child w bs) w _ [] (by simp) ?_ ?_ ?_ hf.2.2.2 ?_ ?_ ?_ ?_
    · intro w' e
      exact ⟨by simp only [bytesTo]; rw [if_neg (Ne.symm e)], by simp⟩
    · rw [hs, ← List.append_assoc]; exact (h.streams w).child bs
    · rw [hf.2.1]; simp
    · rw [hf.1]; exact id
    · rw [hf.2.2.1]; simp
    · rw [holds_iff, holds_iff, hf.1]; exact fun h => ⟨h, rfl⟩
    · rw [hf.1]; exact id
  | childCloses w =>
    show Inv H _ (s.setStream w { s.stream w with closed := true })
    rw [setStream_eq]
    refine h.stream_step (.childCloses w) w _ [] (by simp) ?_ ?_ ?_ rfl id (by simp) (fun h => ⟨h, rfl⟩) id
    · intro w' e
      exact ⟨rfl, by simp [Ne.symm e]⟩
    · rw [wrote_same _ _ _ (fun _ => rfl)]; exact (h.streams w).childCloses
    · simp
  | read w n =>
    have hf : ((s.stream w).read n).closed = (s.stream w).closed ∧
        ((s.stream w).read n).side = (s.stream w).side ∧
        ((s.stream w).read n).trivialHandle = (s.stream w).trivialHandle ∧
        (((s.stream w).read n).task = (s.stream w).task ∨
          ((s.stream w).task = .running ∧ ((s.stream w).read n).task = .failed)) := by
      unfold Stream.read
      split
      · rename_i hc
        cases n with
        | none => exact ⟨rfl, rfl, rfl, .inr ⟨hc.1, rfl⟩⟩
        | some n => exact ⟨rfl, rfl, rfl, .inl rfl⟩
      · exact ⟨rfl, rfl, rfl, .inl rfl⟩
    obtain ⟨f1, f2, f3, f4⟩ := hf
    show Inv H _ (s.setStream w ((s.stream w).read n))
    rw [setStream_eq]
    refine h.stream_step (.read w n) w _ [] (by simp) (fun _ _ => ⟨rfl, by simp⟩) ?_ ?_ f3 ?_ ?_ ?_ ?_
    · rw [wrote_same _ _ _ (fun _ => rfl)]; exact (h.streams w).read n
    · rw [f1]; simp
    · rcases f4 with e | ⟨-, e⟩ <;> rw [e]
      · exact id
      · simp
    · rw [f2]; simp
    · rw [holds_iff, holds_iff]
      rcases f4 with e | ⟨-, e⟩ <;> rw [e]
      · exact fun h => ⟨h, rfl⟩
      · exact fun _ => ⟨⟨by simp, by simp⟩, rfl⟩
    · rcases f4 with e | ⟨e0, e⟩ <;> rw [e]
      · exact id
      · rw [e0]; intro h; cases h
  | write w ans =>
    have hf : ((s.stream w).write ans).2.closed = (s.stream w).closed ∧
        ((s.stream w).write ans).2.trivialHandle = (s.stream w).trivialHandle ∧
        (((s.stream w).write ans).2.task = (s.stream w).task ∨
          ((s.stream w).task = .running ∧ ((s.stream w).write ans).2.task = .failed)) := by
      unfold Stream.write
      split
      · exact ⟨rfl, rfl, .inl rfl⟩
      · rename_i hrun
        simp only [ne_eq, Decidable.not_not] at hrun
        repeat' split
        all_goals first | exact ⟨rfl, rfl, .inl rfl⟩ | exact ⟨rfl, rfl, .inr ⟨hrun, rfl⟩⟩
    obtain ⟨f1, f3, f4⟩ := hf
    refine h.stream_step (.write w ans) w _ _ (by simp) (fun _ _ => ⟨rfl, by simp⟩) ?_ ?_ f3 ?_ (write_side _ _) ?_ ?_
    · rw [wrote_same _ _ _ (fun _ => rfl)]; exact (h.streams w).write ans
    · rw [f1]; simp
    · rcases f4 with e | ⟨-, e⟩ <;> rw [e]
      · exact id
      · simp
    · intro hi; rw [write_idle _ _ hi]; exact ⟨hi, rfl⟩
    · rcases f4 with e | ⟨e0, e⟩ <;> rw [e]
      · exact id
      · rw [e0]; intro h; cases h
  | eof w =>
    have hf : (s.stream w).eof.closed = (s.stream w).closed ∧ (s.stream w).eof.side = (s.stream w).side ∧
        (s.stream w).eof.trivialHandle = (s.stream w).trivialHandle ∧
        ((s.stream w).eof.task = (s.stream w).task ∨ (s.stream w).eof.task = .ok) := by
      unfold Stream.eof
      split
      · exact ⟨rfl, rfl, rfl, .inr rfl⟩
      · exact ⟨rfl, rfl, rfl, .inl rfl⟩
    obtain ⟨f1, f2, f3, f4⟩ := hf
    show Inv H _ (s.setStream w (s.stream w).eof)
    rw [setStream_eq]
    refine h.stream_step (.eof w) w _ [] (by simp) (fun _ _ => ⟨rfl, by simp⟩) ?_ ?_ f3 ?_ ?_ ?_ ?_
    · rw [wrote_same _ _ _ (fun _ => rfl)]; exact (h.streams w).eof
    · rw [f1]; simp
    · rcases f4 with e | e <;> rw [e]
      · exact id
      · simp
    · rw [f2]; simp
    · rw [holds_iff, holds_iff]
      rcases f4 with e | e <;> rw [e]
      · exact fun h => ⟨h, rfl⟩
      · exact fun _ => ⟨⟨by simp, by simp⟩, rfl⟩
    · rcases f4 with e | e <;> rw [e]
      · exact id
      · exact fun _ => rfl
  | reap w =>
    have hf : (s.stream w).reap.closed = (s.stream w).closed ∧ (s.stream w).reap.side = (s.stream w).side ∧
        (s.stream w).reap.trivialHandle = (s.stream w).trivialHandle ∧
        ((s.stream w).reap.task = (s.stream w).task ∨ ((s.stream w).task = .aborting ∧ (s.stream w).reap.task = .dropped)) := by
      unfold Stream.reap
      split
      · rename_i hc; exact ⟨rfl, rfl, rfl, .inr ⟨hc, rfl⟩⟩
      · exact ⟨rfl, rfl, rfl, .inl rfl⟩
    obtain ⟨f1, f2, f3, f4⟩ := hf
    show Inv H _ (s.setStream w (s.stream w).reap)
    rw [setStream_eq]
    refine h.stream_step (.reap w) w _ [] (by simp) (fun _ _ => ⟨rfl, by simp⟩) ?_ ?_ f3 ?_ ?_ ?_ ?_
    · rw [wrote_same _ _ _ (fun _ => rfl)]; exact (h.streams w).reap
    · rw [f1]; simp
    · rcases f4 with e | ⟨e0, e⟩
      · rw [e]; exact id
      · rw [e0]; simp
    · rw [f2]; simp
    · rw [holds_iff, holds_iff]
      rcases f4 with e | ⟨-, e⟩ <;> rw [e]
      · exact fun h => ⟨h, rfl⟩
      · exact fun _ => ⟨⟨by simp, by simp⟩, rfl⟩
    · rcases f4 with e | ⟨e0, e⟩
      · rw [e]; exact id
      · rw [e0]; intro h; cases h
  | getCaptured =>
    unfold St.step
    by_cases hd : s.done = true
    · simp only [hd, if_true]
      exact h.idle _ (fun _ => rfl) (by simp) (by simp)
    · simp only [Bool.not_eq_true] at hd
      have := h.getCaptured hd
      simp only [hd, Bool.false_eq_true, if_false] at this ⊢
      exact this
  | getCapturedRef =>
    have hi := h.idle .getCapturedRef (fun _ => rfl) (by simp) (by simp)
    unfold St.step
    by_cases hd : s.done = true
    · simp only [hd, if_true]; exact hi
    · simp only [Bool.not_eq_true] at hd
      have := hi.event hd (.peeked s.out.side s.err.side) (by simp) (fun w => rfl) (fun e => by cases e)
      simp only [hd, Bool.false_eq_true, if_false] at this ⊢
      exact this
  | close =>
    unfold St.step
    by_cases hd : s.done = true
    · simp only [hd, if_true]
      refine ⟨?_, ?_, fun hn => absurd (by simp) hn, h.combined, ?_, fun _ => by simp⟩
      · intro w; rw [wrote_same _ _ _ (fun _ => rfl)]; exact h.streams w
      · intro w; rw [h.closed w]; simp
      · intro o e c hm
        obtain ⟨k1, k2, k3⟩ := h.finished o e c hm
        exact ⟨k1, k2, fun w => ⟨(k3 w).1, (k3 w).2.1, fun hn => absurd (by simp) hn⟩⟩
    · simp only [Bool.not_eq_true] at hd
      have := h.close hd
      simp only [hd, Bool.false_eq_true, if_false] at this ⊢
      exact this
  | finish =>
    have hi := h.idle .finish (fun _ => rfl) (by simp) (by simp)
    unfold St.step
    by_cases hd : s.done = true
    · have := hi.again
      simp only [hd, if_true] at this ⊢; exact this
    · simp only [Bool.not_eq_true] at hd
      simp only [hd, Bool.false_eq_true, if_false]
      exact hi.finishes hd

theorem Inv.run {H : Which → List Byte} {s : St} {as : List Act} (h : Inv H as s) :
    ∀ bs : List Act, Inv H (as ++ bs) (s.run bs) := by
  intro bs
  induction bs generalizing as s with
  | nil => simpa [St.run] using h
  | cons b bs ih =>
    have := ih (h.step b)
    rw [List.append_assoc] at this
    exact this

theorem inv (piped isRetry : Bool) (hd : List Byte) (as : List Act) :
    Inv (fun w => if w = .out ∧ isRetry = true then hd else []) as ((init piped isRetry hd).run as) := by
  have := (Inv.init piped isRetry hd).run as
  simpa using this

/-! ## The events of one step -/

theorem step_events (s : St) (a : Act) :
    (s.step a).events = s.events ∨ ∃ ev, (s.step a).events = s.events ++ [ev] ∧
      ∀ o e, ev = .peeked o e → o = s.out.side ∧ e = s.err.side := by
  cases a with
  | child w bs => exact .inl (set_rest _ _ _).1
  | childCloses w => exact .inl (set_rest _ _ _).1
  | read w n => exact .inl (set_rest _ _ _).1
  | write w ans => exact .inl (set_rest _ _ _).1
  | eof w => exact .inl (set_rest _ _ _).1
  | reap w => exact .inl (set_rest _ _ _).1
  | getCaptured =>
    unfold St.step
    by_cases hd : s.done = true
    · simp only [hd, if_true]; exact .inl trivial
    · simp only [hd, if_false, Bool.false_eq_true]
      exact .inr ⟨_, rfl, fun o e h => by cases h⟩
  | getCapturedRef =>
    unfold St.step
    by_cases hd : s.done = true
    · simp only [hd, if_true]; exact .inl trivial
    · simp only [hd, if_false, Bool.false_eq_true]
      exact .inr ⟨_, rfl, fun o e h => by cases h; exact ⟨rfl, rfl⟩⟩
  | close =>
    unfold St.step
    by_cases hd : s.done = true
    · simp only [hd, if_true]; exact .inl trivial
    · simp only [hd, if_false, Bool.false_eq_true]; exact .inl trivial
  | finish =>
    unfold St.step
    by_cases hd : s.done = true
    · simp only [hd, if_true]; exact .inr ⟨_, rfl, fun o e h => by cases h⟩
    · simp only [hd, if_false, Bool.false_eq_true]
      unfold St.finish
      repeat' split
      all_goals first
        | exact .inl rfl
        | exact .inr ⟨_, rfl, fun o e h => by cases h⟩

theorem run_snoc (s : St) (as : List Act) (a : Act) : s.run (as ++ [a]) = (s.run as).step a := by
  unfold St.run; rw [List.foldl_append]; rfl

/-- What is captured or peeked at is the beginning of what is to be captured. -/
theorem Inv.side_prefix {H : Which → List Byte} {as : List Act} {s : St} (h : Inv H as s) (w : Which) :
    taken w s.events ++ (s.stream w).side <+: H w ++ wrote w as := by
  refine ⟨(s.stream w).header ++ (s.stream w).buf ++ (s.stream w).pipe, ?_⟩
  rw [← (h.streams w).bytes]
  simp [List.append_assoc]

theorem wrote_prefix (w : Which) (as : List Act) (a : Act) : wrote w as <+: wrote w (as ++ [a]) := by
  rw [wrote_snoc]; exact List.prefix_append _ _

theorem peeks (piped isRetry : Bool) (hd : List Byte) (as : List Act) :
    ∀ pre o e post, ((init piped isRetry hd).run as).events = pre ++ .peeked o e :: post →
      taken .out pre ++ o <+: expected isRetry hd .out as ∧ taken .err pre ++ e <+: expected isRetry hd .err as := by
  obtain ⟨bs, rfl⟩ : ∃ bs, as = bs.reverse := ⟨as.reverse, by simp⟩
  induction bs with
  | nil =>
    intro pre o e post h
    simp [St.run, Capture.init] at h
  | cons b bs ih =>
    intro pre o e post h
    rw [List.reverse_cons, run_snoc] at h
    rw [List.reverse_cons]
    have hinv := inv piped isRetry hd bs.reverse
    have grow : ∀ w, expected isRetry hd w bs.reverse <+: expected isRetry hd w (bs.reverse ++ [b]) := by
      intro w
      obtain ⟨t, ht⟩ := wrote_prefix w bs.reverse b
      exact ⟨t, by unfold expected; rw [List.append_assoc, ht]⟩
    rcases step_events ((init piped isRetry hd).run bs.reverse) b with hs | ⟨ev, hs, hev⟩
    · rw [hs] at h
      obtain ⟨k1, k2⟩ := ih pre o e post h
      exact ⟨k1.trans (grow _), k2.trans (grow _)⟩
    · rw [hs] at h
      rcases List.eq_nil_or_concat post with rfl | ⟨post', x, rfl⟩
      · have := List.append_inj_right' h rfl
        have hpre := List.append_inj_left' h rfl
        rw [List.cons.injEq] at this
        obtain ⟨rfl, rfl⟩ := hev o e this.1
        have p1 := hinv.side_prefix .out
        have p2 := hinv.side_prefix .err
        rw [hpre] at p1 p2
        exact ⟨p1.trans (grow .out), p2.trans (grow .err)⟩
      · rw [List.concat_eq_append] at h
        have h' : ((init piped isRetry hd).run bs.reverse).events ++ [ev] = (pre ++ .peeked o e :: post') ++ [x] := by
          simpa using h
        have hpre := List.append_inj_left' h' rfl
        obtain ⟨k1, k2⟩ := ih pre o e post' hpre
        exact ⟨k1.trans (grow _), k2.trans (grow _)⟩

/-! ## Nothing blocks -/

theorem step_task (s : St) (a : Act) (w : Which) (hf : (s.stream w).task = .running ∨ (s.stream w).task = .ok)
    (h1 : (s.stream w).piped = true → a ≠ .write w .fail) (h2 : a ≠ .read w none) (h3 : a ≠ .close) :
    ((s.step a).stream w).task = .running ∨ ((s.step a).stream w).task = .ok := by
  have other : ∀ w' t, w' ≠ w → ((s.setStream w' t).stream w).task = .running ∨ ((s.setStream w' t).stream w).task = .ok := by
    intro w' t e; rw [stream_set_other _ _ _ _ (Ne.symm e)]; exact hf
  cases a with
  | child w' bs =>
    by_cases e : w' = w
    · subst e
      show ((s.setStream w' _).stream w').task = _ ∨ ((s.setStream w' _).stream w').task = _
      rw [stream_set_same]; unfold Stream.child; split <;> exact hf
    · exact other _ _ e
  | childCloses w' =>
    by_cases e : w' = w
    · subst e
      show ((s.setStream w' _).stream w').task = _ ∨ ((s.setStream w' _).stream w').task = _
      rw [stream_set_same]; exact hf
    · exact other _ _ e
  | read w' n =>
    by_cases e : w' = w
    · subst e
      show ((s.setStream w' _).stream w').task = _ ∨ ((s.setStream w' _).stream w').task = _
      rw [stream_set_same]; unfold Stream.read
      cases n with
      | none => exact absurd rfl h2
      | some n => split <;> exact hf
    · exact other _ _ e
  | write w' ans =>
    have : ∀ w, (s.step (.write w' ans)).stream w = (s.setStream w' ((s.stream w').write ans).2).stream w := by
      intro w; cases w <;> cases w' <;> rfl
    rw [this]
    by_cases e : w' = w
    · subst e
      rw [stream_set_same]
      cases ans with
      | fail =>
        unfold Stream.write pollWrite
        by_cases c1 : (s.stream w').task ≠ .running
        · rw [if_pos c1]; exact hf
        · rw [if_neg c1]
          cases hp : (s.stream w').piped with
          | true => exact absurd rfl (h1 hp)
          | false => split <;> exact hf
      | accept n =>
        unfold Stream.write pollWrite
        by_cases c1 : (s.stream w').task ≠ .running
        · rw [if_pos c1]; exact hf
        · rw [if_neg c1]
          cases (s.stream w').piped <;> (split <;> exact hf)
    · exact other _ _ e
  | eof w' =>
    by_cases e : w' = w
    · subst e
      show ((s.setStream w' _).stream w').task = _ ∨ ((s.setStream w' _).stream w').task = _
      rw [stream_set_same]; unfold Stream.eof
      split
      · exact .inr rfl
      · exact hf
    · exact other _ _ e
  | reap w' =>
    by_cases e : w' = w
    · subst e
      show ((s.setStream w' _).stream w').task = _ ∨ ((s.setStream w' _).stream w').task = _
      rw [stream_set_same]; unfold Stream.reap
      split
      · rename_i hc; rcases hf with h | h <;> rw [h] at hc <;> cases hc
      · exact hf
    · exact other _ _ e
  | getCaptured =>
    unfold St.step
    by_cases hd : s.done = true
    · simp only [hd, if_true]; exact hf
    · simp only [hd, if_false, Bool.false_eq_true]; cases w <;> exact hf
  | getCapturedRef =>
    unfold St.step
    by_cases hd : s.done = true
    · simp only [hd, if_true]; exact hf
    · simp only [hd, if_false, Bool.false_eq_true]; cases w <;> exact hf
  | close => exact absurd rfl h3
  | finish =>
    unfold St.step
    by_cases hd : s.done = true
    · simp only [hd, if_true]; exact hf
    · simp only [hd, if_false, Bool.false_eq_true]
      unfold St.finish
      repeat' split
      all_goals (cases w <;> exact hf)

theorem write_all (s : Stream) (N : Nat) (ht : s.task = .running) (hN : s.header.length + s.buf.length ≤ N) :
    (s.write (.accept N)).2.task = .running ∧ (s.write (.accept N)).2.closed = s.closed ∧
    (s.write (.accept N)).2.pipe = s.pipe ∧ (s.write (.accept N)).2.header = [] ∧
    (s.write (.accept N)).2.buf = (if s.header = [] then [] else s.buf) := by
  have p : ∀ l : List Byte, l.length ≤ N → pollWrite s.piped (.accept N) l = some l.length := by
    intro l hl; unfold pollWrite; split <;> simp [Nat.min_eq_right hl]
  by_cases hh : s.header = []
  · unfold Stream.write
    rw [if_neg (by simp [ht]), if_neg (by simp [hh]), p _ (by omega), if_pos hh]
    simp [ht, hh]
  · unfold Stream.write
    rw [if_neg (by simp [ht]), if_pos hh, p _ (by omega), if_neg hh]
    simp [ht]

/-- What a stream becomes when it is drained. -/
def drained (s : Stream) (N : Nat) : Stream :=
  (((((({ s with closed := true } : Stream).write (.accept N)).2.write (.accept N)).2.read (some N)).write (.accept N)).2).eof

theorem drained_ok (s : Stream) (N : Nat) (hN : s.header.length + s.buf.length + s.pipe.length ≤ N)
    (ht : s.task = .running ∨ s.task = .ok ∧ s.closed = true) : (drained s N).task = .ok := by
  rcases ht with ht | ⟨ht, hcl⟩
  · -- after two writes nothing but the pipe is left
    obtain ⟨a1, a2, a3, a4, a5⟩ := write_all { s with closed := true } N ht (Nat.le_trans (Nat.le_add_right _ _) hN)
    obtain ⟨b1, b2, b3, b4, b5⟩ := write_all _ N a1 (by
      rw [a4, a5]
      split
      · simp
      · simp only [List.length_nil]; omega)
    unfold drained
    generalize (({ s with closed := true } : Stream).write (.accept N)).2 = c1 at *
    generalize (c1.write (.accept N)).2 = t at *
    rw [if_pos a4] at b5
    have hp : t.pipe.length ≤ N := by rw [b3, a3]; exact Nat.le_trans (Nat.le_add_left _ _) hN
    have hr : t.read (some N) = { t with pipe := [], buf := t.pipe } := by
      unfold Stream.read
      rw [if_pos ⟨b1, b4⟩]
      simp [b5, List.take_of_length_le hp, hp]
    rw [hr]
    obtain ⟨d1, d2, d3, d4, d5⟩ := write_all { t with pipe := [], buf := t.pipe } N b1 (by
      show t.header.length + t.pipe.length ≤ N
      rw [b4]; simpa using hp)
    rw [if_pos b4] at d5
    unfold Stream.eof
    rw [if_pos ⟨d1, d4, by rw [d2]; exact b2.trans a2, d3, d5⟩]
  · have nw : ∀ s : Stream, s.task = .ok → (s.write (.accept N)).2 = s := by
      intro s h; unfold Stream.write; rw [if_pos (by simp [h])]
    have nr : ∀ s : Stream, s.task = .ok → s.read (some N) = s := by
      intro s h; unfold Stream.read; rw [if_neg (by simp [h])]
    unfold drained
    have h1 : ({ s with closed := true } : Stream).task = .ok := ht
    rw [nw _ h1, nw _ h1, nr _ h1, nw _ h1]
    unfold Stream.eof
    rw [if_neg (by simp [ht])]
    exact ht

/-- `s'` is `s` with the stream `w` replaced, and some combined output. -/
def Upd (s : St) (w : Which) (t : Stream) (s' : St) : Prop := ∃ c, s' = { s.setStream w t with combined := c }

theorem Upd.step {s s' : St} {w : Which} {t t' : Stream} (h : Upd s w t s') (a : Act)
    (ha : ∀ s : St, Upd s w t' (s.step a) ∨ s.stream w ≠ t) : Upd s w t' (s'.step a) := by
  obtain ⟨c, rfl⟩ := h
  have hs : ({ s.setStream w t with combined := c } : St).stream w = t := by cases w <;> rfl
  rcases ha { s.setStream w t with combined := c } with ⟨c', h⟩ | h
  · refine ⟨c', ?_⟩
    rw [h]
    cases w <;> rfl
  · exact absurd hs h

theorem run_drain (s : St) (w : Which) (N : Nat) :
    ∃ c, s.run (drain w N) = { s.setStream w (drained (s.stream w) N) with combined := c } := by
  have h0 : Upd s w (s.stream w) s := ⟨s.combined, by cases w <;> rfl⟩
  have hset : ∀ (t t' : Stream) (a : Act), (∀ s : St, s.stream w = t → ∃ c, s.step a = { s.setStream w t' with combined := c }) →
      ∀ s : St, Upd s w t' (s.step a) ∨ s.stream w ≠ t := by
    intro t t' a h s
    by_cases e : s.stream w = t
    · exact .inl (h s e)
    · exact .inr e
  have plain : ∀ (s : St) (t : Stream), ∃ c, s.setStream w t = { s.setStream w t with combined := c } := by
    intro s t; exact ⟨s.combined, by cases w <;> rfl⟩
  have wr : ∀ t : Stream, ∀ s : St, Upd s w (t.write (.accept N)).2 (s.step (.write w (.accept N))) ∨ s.stream w ≠ t := by
    intro t
    refine hset _ _ _ ?_
    rintro s rfl
    exact ⟨_, rfl⟩
  have rd : ∀ t : Stream, ∀ s : St, Upd s w (t.read (some N)) (s.step (.read w (some N))) ∨ s.stream w ≠ t := by
    intro t
    refine hset _ _ _ ?_
    rintro s rfl
    exact plain _ _
  have eo : ∀ t : Stream, ∀ s : St, Upd s w t.eof (s.step (.eof w)) ∨ s.stream w ≠ t := by
    intro t
    refine hset _ _ _ ?_
    rintro s rfl
    exact plain _ _
  have h1 := h0.step (.childCloses w) (hset (s.stream w) { s.stream w with closed := true } _ (by
    intro s' e; rw [← e]; exact plain _ _))
  have h2 := h1.step (.write w (.accept N)) (wr _)
  have h3 := h2.step (.write w (.accept N)) (wr _)
  have h4 := h3.step (.read w (some N)) (rd _)
  have h5 := h4.step (.write w (.accept N)) (wr _)
  have h6 := h5.step (.eof w) (eo _)
  exact h6

/-! ## Fields that are set once -/

theorem write_fields (s : Stream) (ans : Ans) :
    (s.write ans).2.piped = s.piped ∧ (s.write ans).2.trivialHandle = s.trivialHandle ∧
    (s.piped = false → (s.write ans).2.forwarded = s.forwarded) := by
  unfold Stream.write
  repeat' split
  all_goals simp_all

theorem read_fields (s : Stream) (n : Option Nat) :
    (s.read n).piped = s.piped ∧ (s.read n).trivialHandle = s.trivialHandle ∧ (s.read n).forwarded = s.forwarded := by
  unfold Stream.read
  repeat' split
  all_goals exact ⟨rfl, rfl, rfl⟩

theorem eof_fields (s : Stream) :
    s.eof.piped = s.piped ∧ s.eof.trivialHandle = s.trivialHandle ∧ s.eof.forwarded = s.forwarded := by
  unfold Stream.eof
  split <;> exact ⟨rfl, rfl, rfl⟩

theorem drained_handle (s : Stream) (N : Nat) : (drained s N).trivialHandle = s.trivialHandle := by
  unfold drained
  rw [(eof_fields _).2.1, (write_fields _ _).2.1, (read_fields _ _).2.1, (write_fields _ _).2.1, (write_fields _ _).2.1]

theorem step_piped (s : St) (a : Act) (w : Which) : ((s.step a).stream w).piped = (s.stream w).piped ∧
    ((s.stream w).piped = false → ((s.step a).stream w).forwarded = (s.stream w).forwarded) := by
  have set : ∀ w' t, t.piped = (s.stream w').piped → ((s.stream w').piped = false → t.forwarded = (s.stream w').forwarded) →
      ((s.setStream w' t).stream w).piped = (s.stream w).piped ∧
      ((s.stream w).piped = false → ((s.setStream w' t).stream w).forwarded = (s.stream w).forwarded) := by
    intro w' t h1 h2
    by_cases e : w = w'
    · subst e; rw [stream_set_same]; exact ⟨h1, h2⟩
    · rw [stream_set_other _ _ _ _ e]; exact ⟨rfl, fun _ => rfl⟩
  have same : ∀ t : St, (∀ w, (t.stream w).piped = (s.stream w).piped ∧ (t.stream w).forwarded = (s.stream w).forwarded) →
      (t.stream w).piped = (s.stream w).piped ∧
      ((s.stream w).piped = false → (t.stream w).forwarded = (s.stream w).forwarded) := fun t h => ⟨(h w).1, fun _ => (h w).2⟩
  cases a with
  | child w' bs => exact set _ _ (by unfold Stream.child; split <;> rfl) (fun _ => by unfold Stream.child; split <;> rfl)
  | childCloses w' => exact set _ _ rfl (fun _ => rfl)
  | read w' n => exact set _ _ (read_fields _ _).1 (fun _ => (read_fields _ _).2.2)
  | write w' ans =>
    have : ∀ w, (s.step (.write w' ans)).stream w = (s.setStream w' ((s.stream w').write ans).2).stream w := by
      intro w; cases w <;> cases w' <;> rfl
    rw [this]
    exact set _ _ (write_fields _ _).1 (write_fields _ _).2.2
  | eof w' => exact set _ _ (eof_fields _).1 (fun _ => (eof_fields _).2.2)
  | reap w' => exact set _ _ (by unfold Stream.reap; split <;> rfl) (fun _ => by unfold Stream.reap; split <;> rfl)
  | getCaptured =>
    unfold St.step
    by_cases hd : s.done = true
    · simp only [hd, if_true]; exact ⟨trivial, fun _ => trivial⟩
    · simp only [hd, if_false, Bool.false_eq_true]
      exact same _ (fun w => by cases w <;> exact ⟨rfl, rfl⟩)
  | getCapturedRef =>
    unfold St.step
    by_cases hd : s.done = true
    · simp only [hd, if_true]; exact ⟨trivial, fun _ => trivial⟩
    · simp only [hd, if_false, Bool.false_eq_true]
      exact same _ (fun w => by cases w <;> exact ⟨rfl, rfl⟩)
  | close =>
    unfold St.step
    by_cases hd : s.done = true
    · simp only [hd, if_true]; exact ⟨trivial, fun _ => trivial⟩
    · simp only [hd, if_false, Bool.false_eq_true]
      exact same _ (fun w => by cases w <;> exact ⟨rfl, rfl⟩)
  | finish =>
    unfold St.step
    by_cases hd : s.done = true
    · simp only [hd, if_true]; exact same _ (fun w => by cases w <;> exact ⟨rfl, rfl⟩)
    · simp only [hd, if_false, Bool.false_eq_true]
      unfold St.finish
      repeat' split
      all_goals exact same _ (fun w => by cases w <;> exact ⟨rfl, rfl⟩)

theorem piped_run (piped isRetry : Bool) (hd : List Byte) (as : List Act) (w : Which) :
    (((init piped isRetry hd).run as).stream w).piped = piped := by
  obtain ⟨bs, rfl⟩ : ∃ bs, as = bs.reverse := ⟨as.reverse, by simp⟩
  induction bs with
  | nil => cases w <;> rfl
  | cons b bs ih => rw [List.reverse_cons, run_snoc, (step_piped _ _ _).1]; exact ih

theorem healthy_task (piped isRetry : Bool) (hd : List Byte) (as : List Act) (hh : Healthy piped as) (hc : Act.close ∉ as) (w : Which) :
    (((init piped isRetry hd).run as).stream w).task = .running ∨ (((init piped isRetry hd).run as).stream w).task = .ok := by
  obtain ⟨bs, rfl⟩ : ∃ bs, as = bs.reverse := ⟨as.reverse, by simp⟩
  induction bs with
  | nil => left; cases w <;> rfl
  | cons b bs ih =>
    rw [List.reverse_cons] at hh hc ⊢
    rw [run_snoc]
    have := ih (fun w => ⟨fun hp hm => (hh w).1 hp (List.mem_append_left _ hm), fun hm => (hh w).2 (List.mem_append_left _ hm)⟩)
      (fun hm => hc (List.mem_append_left _ hm))
    refine step_task _ _ _ this ?_ ?_ ?_
    · rintro hp rfl; exact (hh w).1 ((piped_run piped isRetry hd bs.reverse w).symm.trans hp) (by simp)
    · rintro rfl; exact (hh w).2 (by simp)
    · rintro rfl; exact hc (by simp)

theorem not_forwarded (isRetry : Bool) (hd : List Byte) (as : List Act) (w : Which) :
    (((init false isRetry hd).run as).stream w).forwarded = [] := by
  obtain ⟨bs, rfl⟩ : ∃ bs, as = bs.reverse := ⟨as.reverse, by simp⟩
  induction bs with
  | nil => cases w <;> rfl
  | cons b bs ih => rw [List.reverse_cons, run_snoc, (step_piped _ _ _).2 (piped_run _ _ _ _ _)]; exact ih

/-! ## The end -/

theorem finish_ok (s : St) (to_ te : Stream) (c : List Byte) (hd : s.done = false) (ho : to_.task = .ok) (he : te.task = .ok)
    (h1 : to_.trivialHandle = false) (h2 : te.trivialHandle = false) :
    ∃ o e c', Event.finished o e c' ∈ (({ s with out := to_, err := te, combined := c } : St).step .finish).events := by
  unfold St.step
  simp only [hd, Bool.false_eq_true, if_false]
  unfold St.finish
  simp only [Stream.awaited, Stream.holds, ho, he, h1, h2, Bool.false_eq_true, if_false, Bool.or_self]
  exact ⟨_, _, _, List.mem_append_right _ (List.mem_singleton.mpr rfl)⟩

/-- A call that crashed or failed was the last. -/
theorem no_panic_open (piped isRetry : Bool) (hd : List Byte) (as : List Act)
    (hopen : ((init piped isRetry hd).run as).done = false) : Event.panicked ∉ ((init piped isRetry hd).run as).events := by
  obtain ⟨bs, rfl⟩ : ∃ bs, as = bs.reverse := ⟨as.reverse, by simp⟩
  induction bs with
  | nil => simp [St.run, Capture.init]
  | cons b bs ih =>
    rw [List.reverse_cons, run_snoc] at hopen ⊢
    generalize (init piped isRetry hd).run bs.reverse = s at *
    have keep : s.done = false → (s.step b).events = s.events → Event.panicked ∉ (s.step b).events := by
      intro h1 h2; rw [h2]; exact ih h1
    cases b with
    | child w bs => exact keep (by rw [← hopen]; exact ((set_rest _ _ _).2.1).symm) (set_rest _ _ _).1
    | childCloses w => exact keep (by rw [← hopen]; exact ((set_rest _ _ _).2.1).symm) (set_rest _ _ _).1
    | read w n => exact keep (by rw [← hopen]; exact ((set_rest _ _ _).2.1).symm) (set_rest _ _ _).1
    | write w ans => exact keep (by rw [← hopen]; exact ((set_rest _ _ _).2.1).symm) (set_rest _ _ _).1
    | eof w => exact keep (by rw [← hopen]; exact ((set_rest _ _ _).2.1).symm) (set_rest _ _ _).1
    | reap w => exact keep (by rw [← hopen]; exact ((set_rest _ _ _).2.1).symm) (set_rest _ _ _).1
    | getCaptured =>
      unfold St.step at hopen ⊢
      by_cases hd : s.done = true
      · simp only [hd, if_true] at hopen; cases hopen
      · simp only [hd, if_false, Bool.false_eq_true] at hopen ⊢
        simpa using ih (by simpa using hd)
    | getCapturedRef =>
      unfold St.step at hopen ⊢
      by_cases hd : s.done = true
      · simp only [hd, if_true] at hopen; cases hopen
      · simp only [hd, if_false, Bool.false_eq_true] at hopen ⊢
        simpa using ih (by simpa using hd)
    | close =>
      unfold St.step at hopen ⊢
      by_cases hd : s.done = true
      · simp only [hd, if_true] at hopen; cases hopen
      · simp only [hd, if_false, Bool.false_eq_true] at hopen ⊢
        exact ih (by simpa using hd)
    | finish =>
      unfold St.step at hopen ⊢
      by_cases hd : s.done = true
      · simp only [hd, if_true] at hopen; cases hopen
      · simp only [hd, if_false, Bool.false_eq_true] at hopen ⊢
        have h0 := ih (by simpa using hd)
        unfold St.finish at hopen ⊢
        repeat' split at hopen
        all_goals first
          | cases hopen
          | skip
        all_goals (repeat' split)
        all_goals first
          | exact h0
          | simp_all

theorem reaped_finish (s : St) (hd : s.done = false) (hp : Event.panicked ∉ s.events) :
    Event.panicked ∉ ((((s.step .close).step (.reap .out)).step (.reap .err)).step .finish).events := by
  have e : (((s.step .close).step (.reap .out)).step (.reap .err)) =
      { s with out := s.out.close.reap, err := s.err.close.reap } := by
    unfold St.step
    simp only [hd, Bool.false_eq_true, if_false]
    rfl
  rw [e]
  have ht : ∀ t : Stream, t.close.reap.holds = false ∧ t.close.reap.awaited = .ready := by
    intro t
    cases h : t.task <;> simp [Stream.close, Stream.reap, Stream.holds, Stream.awaited, h]
  unfold St.step
  simp only [hd, Bool.false_eq_true, if_false]
  unfold St.finish
  simp only [(ht s.out).2, (ht s.err).2, (ht s.out).1, (ht s.err).1, Bool.or_self, Bool.false_eq_true, if_false]
  simpa using hp

/-- `finish` is called again only if it is called when it has returned. -/
theorem step_again (s : St) (a : Act) (h : Event.again ∈ (s.step a).events) :
    Event.again ∈ s.events ∨ a = .finish ∧ s.done = true := by
  by_cases hd : a = .finish ∧ s.done = true
  · exact .inr hd
  · left
    cases a with
    | finish =>
      have hd : ¬ s.done = true := fun k => hd ⟨rfl, k⟩
      unfold St.step at h
      simp only [hd, Bool.false_eq_true, if_false] at h
      unfold St.finish at h
      repeat' split at h
      all_goals simpa using h
    | getCaptured => unfold St.step at h; simp only at h; split at h <;> simpa using h
    | getCapturedRef => unfold St.step at h; simp only at h; split at h <;> simpa using h
    | close => unfold St.step at h; simp only at h; split at h <;> exact h
    | _ => unfold St.step at h; rw [(show _ = s.events from (set_rest _ _ _).1)] at h; exact h

theorem again_run (s : St) (as : List Act) (h0 : Event.again ∉ s.events)
    (h : ∀ pre, pre ++ [.finish] <+: as → (s.run pre).done = false) : Event.again ∉ (s.run as).events := by
  obtain ⟨bs, rfl⟩ : ∃ bs, as = bs.reverse := ⟨as.reverse, by simp⟩
  induction bs with
  | nil => exact h0
  | cons b bs ih =>
    rw [List.reverse_cons] at h ⊢
    rw [run_snoc]
    intro hm
    rcases step_again _ b hm with k | ⟨rfl, k⟩
    · exact ih (fun pre hp => h pre (hp.trans (List.prefix_append _ _))) k
    · rw [h _ (List.prefix_refl _)] at k
      cases k

theorem step_done (s : St) (a : Act) (h : s.done = true) : (s.step a).done = true := by
  cases a with
  | finish => unfold St.step; simp [h]
  | getCaptured => unfold St.step; simp [h]
  | getCapturedRef => unfold St.step; simp [h]
  | close => unfold St.step; simp [h]
  | _ => unfold St.step; exact ((set_rest _ _ _).2.1).trans h

theorem no_again_open (piped isRetry : Bool) (hd : List Byte) (as : List Act)
    (hopen : ((init piped isRetry hd).run as).done = false) : Event.again ∉ ((init piped isRetry hd).run as).events := by
  obtain ⟨bs, rfl⟩ : ∃ bs, as = bs.reverse := ⟨as.reverse, by simp⟩
  induction bs with
  | nil => simp [St.run, Capture.init]
  | cons b bs ih =>
    rw [List.reverse_cons, run_snoc] at hopen ⊢
    have h0 : ((init piped isRetry hd).run bs.reverse).done = false := by
      cases k : ((init piped isRetry hd).run bs.reverse).done with
      | false => rfl
      | true => rw [step_done _ b k] at hopen; cases hopen
    intro hm
    rcases step_again _ b hm with k | ⟨_, k⟩
    · exact ih h0 k
    · rw [h0] at k; cases k

end Abq.Capture
