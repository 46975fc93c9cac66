import Verif.Proof.Shutdown

/-!
# Telling a queue to stop reaches all of its servers (C124)

`(start own).run as` is a shutdown manager with all its receivers after any history of calls in any order: receivers made and
dropped, waits for the shutdown begun and given up, the shutdown, the retirement, the end of the manager. `events` is what
happened.
-/

namespace Abq.Props
open Abq.Shutdown Abq.Spec.Shutdown

/-- **C124.** A receiver is told to stop exactly if the shutdown was asked for when the receiver existed and it was not told
before; it learns that the manager is gone exactly if there is nothing else to tell; and waits otherwise. -/
theorem C124_poll (own : Bool) (as : List Act) (i : Nat) (h : Exists i ((start own).run as).events) :
    let evs := ((start own).run as).events
    ∃ r, (((start own).run as).step (.poll i)).events = evs ++ [.polled i r] ∧
      (r = .told ↔ Meant own i evs ∧ .polled i .told ∉ evs) ∧
      (r = .gone ↔ ¬ (Meant own i evs ∧ .polled i .told ∉ evs) ∧ .managerGone ∈ evs) ∧
      (r = .pending ↔ ¬ (Meant own i evs ∧ .polled i .told ∉ evs) ∧ .managerGone ∉ evs) := by
  have inv := inv_run own as
  revert inv h
  generalize (start own).run as = s
  intro h inv
  have hlt := (inv.added i).mp h.1
  cases hr : s.receivers[i]? with
  | none => rw [List.getElem?_eq_getElem hlt] at hr; cases hr
  | some o =>
    cases o with
    | none => exact absurd ((inv.dropped i).mpr hr) h.2
    | some nx =>
      refine ⟨(receive s.tail nx s.manager.isNone).1, by simp only [St.step, hr], ?_⟩
      obtain ⟨hn1, hn2⟩ := inv.next i nx hr
      have ht := inv.tail
      have hg := inv.gone
      have key : (Meant own i s.events ∧ Ev.polled i .told ∉ s.events) ↔ nx < s.tail := by
        constructor
        · rintro ⟨h1, h2⟩
          have := sent_of_meant inv h1
          have := hn2.mpr ⟨.inr h1, h2⟩
          omega
        · intro hl
          obtain ⟨h1 | h1, h2⟩ := hn2.mp (by omega)
          · omega
          · exact ⟨h1, h2⟩
      rw [key]
      unfold receive
      by_cases he : nx = s.tail
      · rw [if_pos he]
        have hl : ¬ nx < s.tail := by omega
        cases hm : s.manager with
        | none => simp [hl, hg.mp hm]
        | some m =>
          have : Ev.managerGone ∉ s.events := fun hc => by rw [hg.mpr hc] at hm; cases hm
          simp [hl, this]
      · rw [if_neg he, if_neg (by omega)]
        have hl : nx < s.tail := by omega
        simp [hl]

/-- **C124.** In particular: once the shutdown was asked for, the next time a receiver that existed then waits for it, it has been
told, however it was used before. -/
theorem C124_reached (own : Bool) (as : List Act) (i : Nat) (h : Exists i ((start own).run as).events)
    (hm : Meant own i ((start own).run as).events) :
    .polled i .told ∈ (((start own).run as).step (.poll i)).events := by
  obtain ⟨r, he, h1, -, -⟩ := C124_poll own as i h
  rw [he]
  by_cases ht : Ev.polled i .told ∈ ((start own).run as).events
  · exact List.mem_append_left _ ht
  · rw [h1.mpr ⟨hm, ht⟩]; simp

/-- **C124.** No receiver is told twice, and none is told if no shutdown was asked for. -/
theorem C124_once (own : Bool) (as : List Act) (i : Nat) :
    ((start own).run as).events.count (.polled i .told) ≤ 1 ∧
    (.polled i .told ∈ ((start own).run as).events → ∃ n, .shutDown (.ok n) ∈ ((start own).run as).events) := by
  suffices h : ∀ s, Shutdown.Inv own s → (s.events.count (.polled i .told) ≤ 1 ∧
      (.polled i .told ∈ s.events → ∃ n, .shutDown (.ok n) ∈ s.events)) →
      (s.run as).events.count (.polled i .told) ≤ 1 ∧
        (.polled i .told ∈ (s.run as).events → ∃ n, .shutDown (.ok n) ∈ (s.run as).events) from
    h _ (inv_start own) (by cases own <;> simp [start, newPair, Shutdown.default])
  induction as with
  | nil => exact fun s _ h => h
  | cons a as ih =>
    intro s inv h
    refine ih _ (inv_step own s a inv) ?_
    rcases step_events own s a inv with he | ⟨e, he, h'⟩
    · rw [he]; exact h
    · rw [he]
      by_cases hp : e = .polled i .told
      · obtain ⟨h1, h2⟩ := h' i hp
        obtain ⟨n, hn⟩ := inv.sent.mp h2
        refine ⟨?_, fun _ => ⟨n, List.mem_append_left _ hn⟩⟩
        rw [List.count_append, List.count_eq_zero_of_not_mem h1, hp]
        simp
      · refine ⟨?_, fun hm => ?_⟩
        · rw [List.count_append, List.count_cons_of_ne hp]
          simpa using h.1
        · have : Ev.polled i .told ∈ s.events := by
            rcases List.mem_append.mp hm with hm | hm
            · exact hm
            · exact absurd (List.mem_singleton.mp hm).symm hp
          obtain ⟨n, hn⟩ := h.2 this
          exact ⟨n, List.mem_append_left _ hn⟩

/-- **C124.** The shutdown is sent to all receivers that exist; it fails only if there are none, and asking a second time panics. -/
theorem C124_shutdown (own : Bool) (as : List Act) (h : .managerGone ∉ ((start own).run as).events) :
    let evs := ((start own).run as).events
    ∃ r, (((start own).run as).step .shutdown).events = evs ++ [.shutDown r] ∧
      ((∃ r', .shutDown r' ∈ evs) → r = .panicked) ∧
      ((∀ r', .shutDown r' ∉ evs) → r = if existing own evs = 0 then .err else .ok (existing own evs)) := by
  have inv := inv_run own as
  revert inv h
  generalize (start own).run as = s
  intro h inv
  cases hm : s.manager with
  | none => exact absurd (inv.gone.mp hm) h
  | some m =>
    have hf := inv.flag m hm
    have hc : s.count m = existing own s.events := by
      have h1 := inv.made
      have h2 := inv.live
      have h3 := inv.mine m hm
      unfold St.count existing
      show _ = s.events.countP isAdded - s.events.countP isDropped + _
      show _ = s.events.countP isAdded - s.events.countP isDropped +
        (if own = true ∧ s.events.countP isAdded = 0 then 1 else 0)
      rw [h3, h1]
      by_cases hr : own = true ∧ s.receivers = []
      · simp [hr]
      · have : ¬ (own = true ∧ s.receivers.length = 0) := fun hc => hr ⟨hc.1, List.length_eq_zero_iff.mp hc.2⟩
        rw [if_neg hr, if_neg this]
        simp; omega
    simp only [← hc, St.step, hm]
    by_cases hs : m.shutdown = true
    · refine ⟨.panicked, by simp [hs], fun _ => rfl, fun hn => ?_⟩
      obtain ⟨r, hr⟩ := hf.mp hs
      exact absurd hr (hn r)
    · by_cases h0 : s.count m = 0
      · exact ⟨.err, by simp [hs, h0], fun he => absurd (hf.mpr he) hs, fun _ => by rw [if_pos h0]⟩
      · exact ⟨.ok (s.count m), by simp [hs, h0], fun he => absurd (hf.mpr he) hs, fun _ => by rw [if_neg h0]⟩

/-- **C124.** All who look see that the queue is to retire exactly if someone said so before: the manager, or a cell of one of its
receivers, even if the receiver or the manager is gone. -/
theorem C124_retired (own : Bool) (as : List Act) :
    let evs := ((start own).run as).events
    (((start own).run as).isRetired = true ↔ .toRetire ∈ evs) ∧
    (.managerGone ∉ evs → .toRetire ∈ (((start own).run as).step .retire).events) ∧
    (∀ i, .added i ∈ evs → .toRetire ∈ (((start own).run as).step (.askToRetire i)).events) := by
  have inv := inv_run own as
  revert inv
  generalize (start own).run as = s
  intro inv
  refine ⟨inv.retired, fun h => ?_, fun i h => ?_⟩
  · cases hm : s.manager with
    | none => exact absurd (inv.gone.mp hm) h
    | some m => simp [St.step, hm]
  · simp [St.step, (inv.added i).mp h]

/-- **C124.** A queue, which makes the receivers of its three servers one after the other when it is started: whenever it is shut
down, before or after its servers have begun to listen, each server that still runs is told the next time it waits. -/
theorem C124_queue (as : List Act) (i : Nat) (hi : i < 3) :
    let evs := ((start true).run ([.add, .add, .add] ++ as)).events
    (∃ n, .shutDown (.ok n) ∈ evs) → .dropped i ∉ evs →
    .polled i .told ∈ (((start true).run ([.add, .add, .add] ++ as)).step (.poll i)).events := by
  have grows : ∀ (as : List Act) (s : St), Shutdown.Inv true s → s.events <+: (s.run as).events := by
    intro as
    induction as with
    | nil => exact fun s _ => List.prefix_refl _
    | cons a as ih =>
      intro s inv
      refine List.IsPrefix.trans ?_ (ih _ (inv_step true s a inv))
      rcases step_events true s a inv with he | ⟨e, he, -⟩
      · rw [he]; exact List.prefix_refl _
      · rw [he]; exact List.prefix_append _ _
  intro evs ⟨n, hn⟩ hd
  have e3 : ((start true).run [.add, .add, .add]).events = [.added 0, .added 1, .added 2] := by decide
  have hrun : (start true).run ([.add, .add, .add] ++ as) = ((start true).run [.add, .add, .add]).run as := by
    simp [St.run, List.foldl_append]
  obtain ⟨rest, hrest⟩ := grows as _ (inv_run true [.add, .add, .add])
  rw [e3, ← hrun] at hrest
  have hadd : ∀ j, j < 3 → Ev.added j ∈ [Ev.added 0, .added 1, .added 2] := by
    intro j hj
    rcases (by omega : j = 0 ∨ j = 1 ∨ j = 2) with rfl | rfl | rfl <;> simp
  refine C124_reached true _ i ⟨?_, hd⟩ ?_
  · rw [← hrest]; exact List.mem_append_left _ (hadd i hi)
  · have hn' : Ev.shutDown (.ok n) ∈ [Ev.added 0, .added 1, .added 2] ++ rest := by rw [hrest]; exact hn
    rcases List.mem_append.mp hn' with h | h
    · simp at h
    · obtain ⟨pre, post, e⟩ := List.append_of_mem h
      refine ⟨[.added 0, .added 1, .added 2] ++ pre, n, post, ?_, .inl (List.mem_append_left _ (hadd i hi))⟩
      rw [← hrest, e, List.append_assoc]

/-- A server that gave up waiting many times is told; one that was made later is not, until the manager is gone; and asking again
panics. -/
example : ((start true).run [.add, .poll 0, .poll 0, .shutdown, .poll 0, .add, .poll 1, .poll 0, .shutdown, .dropManager, .poll 1]).events =
    [.added 0, .polled 0 .pending, .polled 0 .pending, .shutDown (.ok 1), .polled 0 .told, .added 1, .polled 1 .pending,
     .polled 0 .pending, .shutDown .panicked, .managerGone, .polled 1 .gone] := by decide

/-- The manager's own receiver does not miss a shutdown that was asked for before it was taken. -/
example : ((start true).run [.shutdown, .add, .add, .poll 0, .poll 1]).events =
    [.shutDown (.ok 1), .added 0, .added 1, .polled 0 .told, .polled 1 .pending] := by decide

/-- Nobody to tell. -/
example : ((start false).run [.drop 0, .shutdown, .add, .poll 1]).events =
    [.added 0, .dropped 0, .shutDown .err, .added 1, .polled 1 .pending] := by decide

/-- A cell of a receiver that is gone still speaks for it. -/
example : ((start true).run [.add, .drop 0, .askToRetire 0]).isRetired = true ∧
    ((start true).run [.add, .drop 0]).isRetired = false := by decide

end Abq.Props
