import Verif.Spec.Shutdown

namespace Abq.Shutdown
open Abq.Spec.Shutdown

theorem run_snoc (s : St) (as : List Act) (a : Act) : s.run (as ++ [a]) = (s.run as).step a := by
  simp [St.run, List.foldl_append]

theorem meant_snoc (own : Bool) (i : Nat) (evs : List Ev) (e : Ev) :
    Meant own i (evs ++ [e]) ↔ Meant own i evs ∨ (∃ n, e = .shutDown (.ok n)) ∧ (.added i ∈ evs ∨ (own = true ∧ i = 0)) := by
  constructor
  · rintro ⟨pre, n, post, h, hi⟩
    rcases List.eq_nil_or_concat post with rfl | ⟨post', x, rfl⟩
    · have := List.append_inj' h rfl
      obtain ⟨rfl, h2⟩ := this
      cases h2
      exact .inr ⟨⟨n, rfl⟩, hi⟩
    · have h' : evs ++ [e] = (pre ++ .shutDown (.ok n) :: post') ++ [x] := by rw [h]; simp
      obtain ⟨rfl, -⟩ := List.append_inj' h' rfl
      exact .inl ⟨pre, n, post', rfl, hi⟩
  · rintro (⟨pre, n, post, rfl, hi⟩ | ⟨⟨n, rfl⟩, hi⟩)
    · exact ⟨pre, n, post ++ [e], by simp, hi⟩
    · exact ⟨evs, n, [], rfl, hi⟩

def isAdded (e : Ev) : Bool := match e with | .added _ => true | _ => false
def isDropped (e : Ev) : Bool := match e with | .dropped _ => true | _ => false

/-- What holds of every state. -/
structure Inv (own : Bool) (s : St) : Prop where
  tail : s.tail ≤ 1
  sent : s.tail = 1 ↔ ∃ n, Ev.shutDown (.ok n) ∈ s.events
  flag : ∀ m, s.manager = some m → (m.shutdown = true ↔ ∃ r, Ev.shutDown r ∈ s.events)
  gone : s.manager = none ↔ Ev.managerGone ∈ s.events
  mine : ∀ m, s.manager = some m → (m.own = if own = true ∧ s.receivers = [] then some 0 else none)
  added : ∀ i : Nat, Ev.added i ∈ s.events ↔ i < s.receivers.length
  dropped : ∀ i : Nat, Ev.dropped i ∈ s.events ↔ s.receivers[i]? = some none
  next : ∀ i n : Nat, s.receivers[i]? = some (some n) → n ≤ s.tail ∧
    (n = 0 ↔ (s.tail = 0 ∨ Meant own i s.events) ∧ Ev.polled i .told ∉ s.events)
  polled : ∀ i : Nat, Ev.polled i .told ∈ s.events → i < s.receivers.length
  made : s.events.countP isAdded = s.receivers.length
  live : s.events.countP isDropped + s.receivers.countP (·.isSome) = s.receivers.length
  retired : s.retired = true ↔ Ev.toRetire ∈ s.events

theorem inv_start (own : Bool) : Inv own (start own) := by
  cases own
  · constructor <;> simp [start, newPair, isAdded, isDropped]
    · intro i; cases i <;> simp
    · intro i n h
      cases i with
      | zero => simp at h; omega
      | succ i => simp at h
  · constructor <;> simp [start, Shutdown.default, isAdded, isDropped]

theorem sent_of_meant {own : Bool} {s : St} (h : Inv own s) {i : Nat} (hm : Meant own i s.events) : s.tail = 1 := by
  obtain ⟨pre, n, post, e, -⟩ := hm
  exact h.sent.mpr ⟨n, by rw [e]; simp⟩

theorem inv_step (own : Bool) (s : St) (a : Act) (h : Inv own s) : Inv own (s.step a) := by
  cases a with
  | add =>
    simp only [St.step]
    cases hm : s.manager with
    | none => exact h
    | some m =>
      have ho := h.mine m hm
      simp only
      generalize hn : (match m.own with | some p => p | none => s.tail) = nx
      have hnx : nx = if own = true ∧ s.receivers = [] then 0 else s.tail := by
        rw [← hn, ho]; by_cases hc : own = true ∧ s.receivers = [] <;> simp [hc]
      have hmeant : ∀ i, Meant own i (s.events ++ [Ev.added s.receivers.length]) ↔ Meant own i s.events := by
        intro i; rw [meant_snoc]; simp
      constructor
      · exact h.tail
      · simpa using h.sent
      · intro m' hm'
        cases hm'
        simpa using h.flag m hm
      · have := h.gone; rw [hm] at this; simpa using this
      · intro m' hm'; cases hm'; simp
      · intro i
        simp [h.added i]; omega
      · intro i
        have := h.dropped i
        simp [this, List.getElem?_append]
        by_cases hi : i < s.receivers.length
        · simp [hi]
        · rw [if_neg hi, List.getElem?_eq_none (by omega)]
          simp only [reduceCtorEq, false_iff]
          cases hj : i - s.receivers.length <;> simp
      · intro i n hi
        rw [hmeant]
        simp only [List.mem_append, List.mem_singleton, reduceCtorEq, or_false]
        by_cases hlt : i < s.receivers.length
        · rw [List.getElem?_append_left hlt] at hi
          exact h.next i n hi
        · rw [List.getElem?_append_right (by omega)] at hi
          have hi0 : i = s.receivers.length := by
            rcases Nat.lt_or_ge s.receivers.length i with hlt' | hge
            · rw [List.getElem?_eq_none (by simp; omega)] at hi; cases hi
            · omega
          subst hi0
          simp only [Nat.sub_self, List.getElem?_cons_zero, Option.some.injEq] at hi
          have hi' := hn.symm.trans hi
          subst hi'
          have hnp : Ev.polled s.receivers.length .told ∉ s.events := fun hp => by have := h.polled _ hp; omega
          have ht := h.tail
          rw [hnx]
          split
          · rename_i hc
            refine ⟨by omega, fun _ => ⟨?_, hnp⟩, fun _ => rfl⟩
            rcases Nat.eq_zero_or_pos s.tail with h0 | h0
            · exact .inl h0
            · obtain ⟨k, hk⟩ := h.sent.mp (by omega)
              obtain ⟨pre, post, e⟩ := List.append_of_mem hk
              exact .inr ⟨pre, k, post, e, .inr ⟨hc.1, by simp [hc.2]⟩⟩
          · rename_i hc
            refine ⟨Nat.le_refl _, ⟨fun h0 => ⟨.inl h0, hnp⟩, ?_⟩⟩
            rintro ⟨h0 | ⟨pre, k, post, e, hi⟩, -⟩
            · exact h0
            · exfalso
              rcases hi with hi | ⟨h1, h2⟩
              · have := (h.added s.receivers.length).mp (by rw [e]; simp [hi])
                omega
              · exact hc ⟨h1, List.length_eq_zero_iff.mp h2⟩
      · intro i hp
        have : Ev.polled i .told ∈ s.events := by simpa using hp
        have := h.polled i this
        simp; omega
      · simp [h.made, isAdded]
      · have := h.live
        simp [isDropped]; omega
      · simpa using h.retired
  | drop i =>
    simp only [St.step]
    cases hr : s.receivers[i]? with
    | none => exact h
    | some o =>
      cases o with
      | none => exact h
      | some nx =>
        simp only
        have hlt : i < s.receivers.length := by
          rcases Nat.lt_or_ge i s.receivers.length with hl | hl
          · exact hl
          · rw [List.getElem?_eq_none hl] at hr; cases hr
        have hmeant : ∀ j, Meant own j (s.events ++ [Ev.dropped i]) ↔ Meant own j s.events := by
          intro j; rw [meant_snoc]; simp
        constructor
        · exact h.tail
        · simpa using h.sent
        · intro m hm; simpa using h.flag m hm
        · simpa using h.gone
        · intro m hm
          have := h.mine m hm
          simpa using this
        · intro j; simpa using h.added j
        · intro j
          by_cases hj : j = i
          · subst hj; simp [hlt]
          · have hij : i ≠ j := fun e => hj e.symm
            simp only [List.getElem?_set_ne hij]
            simpa [hj] using h.dropped j
        · intro j n hj
          rw [hmeant]
          by_cases hij : i = j
          · subst hij; simp [hlt] at hj
          · simp only [List.getElem?_set_ne hij] at hj
            simpa using h.next j n hj
        · intro j hp; simpa using h.polled j (by simpa using hp)
        · simp [h.made, isAdded]
        · have := h.live
          have hc : (s.receivers.set i none).countP (·.isSome) + 1 = s.receivers.countP (·.isSome) := by
            have hge : s.receivers[i] = some nx := by
              have := List.getElem?_eq_getElem hlt; rw [hr] at this; exact (Option.some.inj this).symm
            rw [List.countP_set hlt, hge]
            have : 0 < s.receivers.countP (·.isSome) :=
              List.countP_pos_iff.mpr ⟨some nx, List.mem_of_getElem? hr, rfl⟩
            simp; omega
          simp [isDropped]; omega
        · simpa using h.retired
  | poll i =>
    simp only [St.step]
    cases hr : s.receivers[i]? with
    | none => exact h
    | some o =>
      cases o with
      | none => exact h
      | some nx =>
        simp only
        have hlt : i < s.receivers.length := by
          rcases Nat.lt_or_ge i s.receivers.length with hl | hl
          · exact hl
          · rw [List.getElem?_eq_none hl] at hr; cases hr
        obtain ⟨hn1, hn2⟩ := h.next i nx hr
        have ht := h.tail
        generalize hrec : receive s.tail nx s.manager.isNone = r
        have hrr : (nx = s.tail ∧ r.1 ≠ .told ∧ r.2 = nx) ∨ (nx = 0 ∧ s.tail = 1 ∧ r.1 = .told ∧ r.2 = 1) := by
          subst hrec
          unfold receive
          by_cases h1 : nx = s.tail
          · left
            rw [if_pos h1]
            refine ⟨h1, ?_, rfl⟩
            simp only
            split <;> simp
          · right
            rw [if_neg h1, if_neg (by omega)]
            exact ⟨by omega, by omega, rfl, by simp only; omega⟩
        have hmeant : ∀ j, Meant own j (s.events ++ [Ev.polled i r.1]) ↔ Meant own j s.events := by
          intro j; rw [meant_snoc]; simp
        have hge : s.receivers[i] = some nx := by
          have := List.getElem?_eq_getElem hlt; rw [hr] at this; exact (Option.some.inj this).symm
        constructor
        · exact h.tail
        · simpa using h.sent
        · intro m hm; simpa using h.flag m hm
        · simpa using h.gone
        · intro m hm
          have := h.mine m hm
          simpa using this
        · intro j; simpa using h.added j
        · intro j
          by_cases hij : i = j
          · subst hij
            have := h.dropped i
            rw [hr] at this
            simpa [hlt] using this
          · simp only [List.getElem?_set_ne hij]
            simpa using h.dropped j
        · intro j n hj
          rw [hmeant]
          by_cases hij : i = j
          · subst hij
            simp [hlt] at hj
            subst hj
            simp only [List.mem_append, List.mem_singleton]
            rcases hrr with ⟨e1, e2, e3⟩ | ⟨e1, e2, e3, e4⟩
            · rw [e3]
              refine ⟨hn1, hn2.trans ?_⟩
              have : ¬ Ev.polled i .told = Ev.polled i r.1 := by
                intro e; injection e with _ e; exact e2 e.symm
              simp [this]
            · rw [e4]
              refine ⟨by omega, ?_⟩
              simp [e3]
          · simp only [List.getElem?_set_ne hij] at hj
            have := h.next j n hj
            refine ⟨this.1, this.2.trans ?_⟩
            have : ¬ Ev.polled j .told = Ev.polled i r.1 := by
              intro e; injection e with e; exact hij e.symm
            simp [this]
        · intro j hp
          simp only [List.mem_append, List.mem_singleton] at hp
          simp only [List.length_set]
          rcases hp with hp | hp
          · exact h.polled j hp
          · injection hp with e; omega
        · simp [h.made, isAdded]
        · have := h.live
          have hc : (s.receivers.set i (some r.2)).countP (·.isSome) = s.receivers.countP (·.isSome) := by
            rw [List.countP_set hlt, hge]
            have : 0 < s.receivers.countP (·.isSome) :=
              List.countP_pos_iff.mpr ⟨some nx, List.mem_of_getElem? hr, rfl⟩
            simp; omega
          simp [isDropped, hc]; omega
        · simpa using h.retired
  | shutdown =>
    simp only [St.step]
    cases hm : s.manager with
    | none => exact h
    | some m =>
      have hf := h.flag m hm
      have hg := h.gone
      rw [hm] at hg
      simp only
      split
      · rename_i hs
        have hmeant : ∀ j, Meant own j (s.events ++ [Ev.shutDown .panicked]) ↔ Meant own j s.events := by
          intro j; rw [meant_snoc]; simp
        constructor
        · exact h.tail
        · simpa using h.sent
        · intro m' hm'
          cases hm'
          simp only [hs, true_iff]
          exact ⟨.panicked, by simp⟩
        · simpa using hg
        · intro m' hm'; cases hm'; exact h.mine m hm
        · intro j; simpa using h.added j
        · intro j; simpa using h.dropped j
        · intro j n hj; rw [hmeant]; simpa using h.next j n hj
        · intro j hp; exact h.polled j (by simpa using hp)
        · simpa [isAdded] using h.made
        · simpa [isDropped] using h.live
        · simpa using h.retired
      · rename_i hs
        have hnone : ∀ r, Ev.shutDown r ∉ s.events := fun r hr => hs (hf.mpr ⟨r, hr⟩)
        have ht0 : s.tail = 0 := by
          have := h.tail
          rcases Nat.eq_zero_or_pos s.tail with h0 | h0
          · exact h0
          · obtain ⟨k, hk⟩ := h.sent.mp (by omega); exact absurd hk (hnone _)
        split
        · have hmeant : ∀ j, Meant own j (s.events ++ [Ev.shutDown .err]) ↔ Meant own j s.events := by
            intro j; rw [meant_snoc]; simp
          constructor
          · exact h.tail
          · simpa using h.sent
          · intro m' hm'
            cases hm'
            simp only [true_iff]
            exact ⟨.err, by simp⟩
          · simpa using hg
          · intro m' hm'; cases hm'; exact h.mine m hm
          · intro j; simpa using h.added j
          · intro j; simpa using h.dropped j
          · intro j n hj; rw [hmeant]; simpa using h.next j n hj
          · intro j hp; exact h.polled j (by simpa using hp)
          · simpa [isAdded] using h.made
          · simpa [isDropped] using h.live
          · simpa using h.retired
        · constructor
          · simp only; omega
          · simp only [ht0, true_iff]
            exact ⟨s.count m, by simp⟩
          · intro m' hm'
            cases hm'
            simp only [true_iff]
            exact ⟨.ok (s.count m), by simp⟩
          · simpa using hg
          · intro m' hm'; cases hm'; exact h.mine m hm
          · intro j; simpa using h.added j
          · intro j; simpa using h.dropped j
          · intro j n hj
            obtain ⟨h1, h2⟩ := h.next j n hj
            refine ⟨by simp only; omega, h2.trans ?_⟩
            have hlt : j < s.receivers.length := by
              rcases Nat.lt_or_ge j s.receivers.length with hl | hl
              · exact hl
              · simp only [List.getElem?_eq_none hl] at hj; cases hj
            have hm' : Meant own j (s.events ++ [Ev.shutDown (.ok (s.count m))]) :=
              (meant_snoc ..).mpr (.inr ⟨⟨_, rfl⟩, .inl ((h.added j).mpr hlt)⟩)
            simp [ht0, hm']
          · intro j hp; exact h.polled j (by simpa using hp)
          · simpa [isAdded] using h.made
          · simpa [isDropped] using h.live
          · simpa using h.retired
  | dropManager =>
    simp only [St.step]
    cases hm : s.manager with
    | none => exact h
    | some m =>
      have hmeant : ∀ j, Meant own j (s.events ++ [Ev.managerGone]) ↔ Meant own j s.events := by
        intro j; rw [meant_snoc]; simp
      constructor
      · exact h.tail
      · simpa using h.sent
      · intro m' hm'; cases hm'
      · simp
      · intro m' hm'; cases hm'
      · intro j; simpa using h.added j
      · intro j; simpa using h.dropped j
      · intro j n hj; rw [hmeant]; simpa using h.next j n hj
      · intro j hp; exact h.polled j (by simpa using hp)
      · simpa [isAdded] using h.made
      · simpa [isDropped] using h.live
      · simpa using h.retired
  | retire =>
    simp only [St.step]
    cases hm : s.manager with
    | none => exact h
    | some m =>
      have hmeant : ∀ j, Meant own j (s.events ++ [Ev.toRetire]) ↔ Meant own j s.events := by
        intro j; rw [meant_snoc]; simp
      constructor
      · exact h.tail
      · simpa using h.sent
      · intro m' hm'; cases hm'; simpa using h.flag m hm
      · simpa [hm] using h.gone
      · intro m' hm'; cases hm'; exact h.mine m hm
      · intro j; simpa using h.added j
      · intro j; simpa using h.dropped j
      · intro j n hj; rw [hmeant]; simpa using h.next j n hj
      · intro j hp; exact h.polled j (by simpa using hp)
      · simpa [isAdded] using h.made
      · simpa [isDropped] using h.live
      · simp
  | askToRetire i =>
    simp only [St.step]
    split
    · have hmeant : ∀ j, Meant own j (s.events ++ [Ev.toRetire]) ↔ Meant own j s.events := by
        intro j; rw [meant_snoc]; simp
      constructor
      · exact h.tail
      · simpa using h.sent
      · intro m' hm'; simpa using h.flag m' hm'
      · simpa using h.gone
      · exact h.mine
      · intro j; simpa using h.added j
      · intro j; simpa using h.dropped j
      · intro j n hj; rw [hmeant]; simpa using h.next j n hj
      · intro j hp; exact h.polled j (by simpa using hp)
      · simpa [isAdded] using h.made
      · simpa [isDropped] using h.live
      · simp
    · exact h

theorem step_events (own : Bool) (s : St) (a : Act) (h : Inv own s) : (s.step a).events = s.events ∨
    ∃ e, (s.step a).events = s.events ++ [e] ∧ ∀ i, e = .polled i .told → Ev.polled i .told ∉ s.events ∧ s.tail = 1 := by
  cases a with
  | poll i =>
    simp only [St.step]
    cases hr : s.receivers[i]? with
    | none => exact .inl rfl
    | some o =>
      cases o with
      | none => exact .inl rfl
      | some nx =>
        refine .inr ⟨_, rfl, ?_⟩
        intro j e
        injection e with e1 e2
        subst e1
        obtain ⟨hn1, hn2⟩ := h.next i nx hr
        have ht := h.tail
        have hlt : nx < s.tail := by
          rcases Nat.lt_or_ge nx s.tail with hl | hl
          · exact hl
          · unfold receive at e2
            rw [if_pos (by omega)] at e2
            simp only at e2
            split at e2 <;> cases e2
        exact ⟨(hn2.mp (by omega)).2, by omega⟩
  | _ =>
    simp only [St.step]
    repeat' split
    all_goals first
      | exact .inl rfl
      | exact .inr ⟨_, rfl, fun _ e => by cases e⟩

theorem inv_run (own : Bool) (as : List Act) : Inv own ((start own).run as) := by
  suffices h : ∀ s, Inv own s → Inv own (s.run as) from h _ (inv_start own)
  induction as with
  | nil => exact fun s h => h
  | cons a as ih => exact fun s h => ih _ (inv_step own s a h)

end Abq.Shutdown
