import Verif.Props.AllRunsResults
import Verif.Proof.AllRunsSeen

/-!
# C11, C13, C16: exactly who is taken for a retry, who is waited for, and results after a cancellation in vain
-/

namespace Abq.Props
open Abq Runs Spec WorkerSet
variable {T : Type}

/-- **C11.** Once the tests of a run are known, a worker runner that joins it is answered as a retry exactly when the run has seen it;
otherwise it is fresh while tests are handed out, and told that the run is done when they are used up. -/
theorem C11_retry_iff_seen (acts : List (RunsAct T)) (i : Nat) (ans : RemoteAns) (ok : Bool) (p : JoinParams)
    (hp : ((init : Runs T).run acts).pending[i]? = some (.joinRead p)) :
    ∃ a, (((init : Runs T).run acts).step (.resume i ans ok)).events =
        ((init : Runs T).run acts).events ++ [.joined p a] ∧
      match phaseOf ((init : Runs T).run acts) p.rid, (attendance p.rid p.entity.tag ((init : Runs T).run acts).events).seen with
      | some .serving, true => ∃ d, a = .retry d
      | some .serving, false => ∃ d, a = .fresh false d
      | some .exhausted, true => ∃ d, a = .retry d
      | some .exhausted, false => ∃ x, a = .alreadyDone x
      | some .waiting, _ => ∃ d, a = .fresh false d
      | some .cancelled, _ => ∃ r, a = .cancelled r
      | none, _ => False := by
  have hmem : (.joinRead p : Pending T) ∈ ((init : Runs T).run acts).pending :=
    List.mem_of_getElem? hp
  have hb := (base_run acts p.rid (T := T)).ps (.joinRead p)
    (List.mem_filter.2 ⟨hmem, by simp [Pending.rid]⟩)
  have hst := (seenInv_run acts p.rid p.entity.tag (T := T)).stands
  rw [show (proj ((init : Runs T).run acts) p.rid).evs =
    ((init : Runs T).run acts).events.filter (fun ev => ev.rid == p.rid) from rfl, attendance_filter] at hst
  rw [step_resume _ _ _ _ _ hp (by simp [Pending.writes])]
  cases hs : ((init : Runs T).run acts).get p.rid with
  | none => exact absurd hs hb
  | some s =>
    have hL : (proj ((init : Runs T).run acts) p.rid).s = some s := hs
    rw [hL] at hst
    refine ⟨(s.join p.entity p.hash).2, ?_, ?_⟩
    · show ((init : Runs T).run acts).events ++ _ = _
      simp only [Pending.rid, hs, contEff]
    · simp only [phaseOf, hs, Option.map_some]
      revert hst
      generalize attendance p.rid p.entity.tag ((init : Runs T).run acts).events = k
      intro hst
      cases s with
      | waiting ws b st h => exact ⟨_, rfl⟩
      | cancelled r => exact ⟨_, rfl⟩
      | hasWork q b md act h =>
        have hi : (act.insertByTag p.entity none).2 = none ↔ p.entity.tag ∉ tags act := by
          rw [← insertByTag_old (ws := act) (e := p.entity) (v := none)]
          cases (act.insertByTag p.entity none).2 <;> simp
        simp only [phase, RunState.join]
        cases hk : k.seen with
        | true =>
          have := (val_isSome _ _).1 (hst.2.seen ▸ hk)
          simp only
          split
          · next hn => exact absurd this (hi.1 hn)
          · exact ⟨_, rfl⟩
        | false =>
          have : p.entity.tag ∉ tags act := fun h => by rw [hst.2.seen, (val_isSome _ _).2 h] at hk; cases hk
          simp only [hi.2 this]
          exact ⟨_, rfl⟩
      | done x md seen m h =>
        simp only [phase, RunState.join]
        cases hk : k.seen with
        | true =>
          rw [if_pos ((mem_recorded seen p.entity).2 ((val_isSome _ _).1 (hst.2.seen ▸ hk)))]
          exact ⟨_, rfl⟩
        | false =>
          rw [if_neg (fun hc => by rw [hst.2.seen, (val_isSome _ _).2 ((mem_recorded seen p.entity).1 hc)] at hk; cases hk)]
          exact ⟨_, rfl⟩

theorem cancel_active (seen : WorkerSet Bool) (e : Entity) (hn : (tags seen).Nodup) :
    ((seen.insertByTag e false).1.filter (fun p => p.2)).map (fun p => p.1.tag) =
      ((seen.filter (fun p => p.2)).map (fun p => p.1.tag)).filter (fun t => decide (t ≠ e.tag)) := by
  have keep : ∀ l : WorkerSet Bool, (∀ y ∈ l, y.1.tag ≠ e.tag) →
      ((l.filter (fun p => p.2)).map (fun p => p.1.tag)).filter (fun t => decide (t ≠ e.tag)) =
        (l.filter (fun p => p.2)).map (fun p => p.1.tag) := by
    intro l hl
    rw [List.filter_eq_self]
    intro t ht
    obtain ⟨y, hy, rfl⟩ := List.mem_map.1 ht
    exact decide_eq_true (hl y (List.mem_filter.1 hy).1)
  rcases insertByTag_cases seen e false with ⟨a, x, b, rfl, hx, ha, h⟩ | ⟨hy, h⟩
  · have hb : ∀ y ∈ b, y.1.tag ≠ e.tag := by
      intro y hy he
      simp only [tags, List.map_append, List.map_cons, List.nodup_append, List.nodup_cons] at hn
      exact hn.2.1.1 (by rw [hx, ← he]; exact List.mem_map_of_mem hy)
    rw [h]
    simp only [List.filter_append, List.filter_cons, List.map_append, keep a ha, Bool.false_eq_true, if_false]
    congr 1
    split
    · rw [List.map_cons, List.filter_cons, if_neg (by simp [hx]), keep b hb]
    · rw [keep b hb]
  · rw [h, keep seen hy]
    simp

/-- **C13.** A cancellation of a run whose tests were all handed out keeps nobody from reading its results: whoever cancels is no longer
waited for, and nothing else changes. -/
theorem C13_results_readable (acts : List (RunsAct T)) (rid : RunId) (e : Entity) (reason : CancelReason)
    (h : phaseOf ((init : Runs T).run acts) rid = some .exhausted) :
    ∃ active : List Tag,
      answer ((init : Runs T).run acts) rid .readCell = [.read rid (readable active)] ∧
      answer (((init : Runs T).run acts).step (.request rid (.cancel e reason))) rid .readCell =
        [.read rid (readable (active.filter (fun t => decide (t ≠ e.tag))))] := by
  have hnl := not_locked acts rid _ h (by simp)
  have htr := (track_run acts rid (T := T)).nodup
  obtain ⟨s, hs, hph⟩ := phaseOf_some h
  have hL : (proj ((init : Runs T).run acts) rid).s = some s := hs
  rw [hL] at htr
  cases s with
  | done x md seen m hh =>
    have hstep := step_request ((init : Runs T).run acts) rid (.cancel e reason) (fun _ => hnl)
    have hrid : (((init : Runs T).run acts).step (.request rid (.cancel e reason))).get rid =
        some (.done x md (seen.insertByTag e false).1 m hh) := by
      rw [hstep, apply_get, if_pos rfl]
      · rw [hs]; rfl
      · rw [hs]; simp [reqEff, exec, RunState.cancel]
    have hread : ∀ seen : WorkerSet Bool, (RunState.done (T := T) x md seen m hh).readCell =
        readable ((seen.filter (fun p => p.2)).map (fun p => p.1.tag)) := by
      intro seen
      simp only [RunState.readCell]
      generalize (seen.filter (fun p => p.2)).map (fun p => p.1.tag) = l
      cases l <;> rfl
    refine ⟨(seen.filter (fun p => p.2)).map (fun p => p.1.tag), ?_, ?_⟩
    · rw [answer_eq _ _ _ (by simp [Req.writes]), hs]
      simp only [reqEff, exec, hread]
    · rw [answer_eq _ _ _ (by simp [Req.writes]), hrid]
      simp only [reqEff, exec, hread]
      congr 3
      exact cancel_active seen e htr
  | _ => cases hph

theorem active_listed {α : Type} {ws : WorkerSet α} {f : α → Bool} {k : Attendance} {t : Tag} (hn : (tags ws).Nodup)
    (h : Look k (val ws t) f) : t ∈ (ws.filter (fun p => f p.2)).map (fun p => p.1.tag) ↔ k.active = true := by
  rw [h.active, Option.any_eq_true]
  constructor
  · intro ht
    obtain ⟨p, hp, rfl⟩ := List.mem_map.1 ht
    obtain ⟨hp1, hp2⟩ := List.mem_filter.1 hp
    exact ⟨p.2, mem_val hn hp1, hp2⟩
  · rintro ⟨v, hv, hf⟩
    obtain ⟨p, hp1, hp2, rfl⟩ := val_mem hv
    exact List.mem_map.2 ⟨p, List.mem_filter.2 ⟨hp1, hf⟩, hp2⟩

theorem read_attendance {rid : RunId} {s0 s1 : Option (RunState T)} {ans : ReadAns} {k : Attendance} {t : Tag}
    (h1 : Step1 rid s0 [.read rid ans] s1) (hn : (recorded s0).Nodup) (hk : Stands t k s0) :
    (∀ l, ans = .inProgress l → (t ∈ l ↔ k.active = true)) ∧
    (ans = .readFromCell → k.exhausted = true ∧ k.active = false) := by
  generalize hx : [(.read rid ans : Event T)] = evs' at h1
  cases h1 with
  | req s r =>
    cases r <;> simp only [exec] at hx
    case nextWork e => split at hx <;> cases hx
    case readCell =>
      have hans : ans = s.readCell := by simpa using hx
      subst hans
      cases s with
      | waiting => simp [RunState.readCell]
      | cancelled r => cases r <;> simp [RunState.readCell]
      | hasWork q b md act h =>
        refine ⟨?_, nofun⟩
        intro l hl
        simp only [RunState.readCell, ReadAns.inProgress.injEq] at hl
        subst hl
        exact active_listed hn hk.2
      | done x md seen m h =>
        have := active_listed hn hk.2
        simp only [id] at this
        simp only [RunState.readCell]
        split
        · next hemp =>
          rw [List.isEmpty_iff] at hemp
          rw [hemp] at this
          refine ⟨nofun, fun _ => ⟨hk.1.2.2, ?_⟩⟩
          cases hact : k.active with
          | true => cases this.2 hact
          | false => rfl
        · refine ⟨?_, nofun⟩
          intro l hl
          simp only [ReadAns.inProgress.injEq] at hl
          subst hl
          exact this
    all_goals cases hx
  | _ => cases hx

/-- **C16, exactly**, whatever runners do: an answer that the results are not complete lists exactly the runners that are at work
according to the history, and results are served from storage only when the tests are used up and no runner is at work. -/
theorem C16_active_exact (acts : List (RunsAct T)) (rid : RunId) (ans : ReadAns) (a b : List (Event T))
    (h : ((init : Runs T).run acts).events = a ++ .read rid ans :: b) (t : Tag) :
    (∀ l, ans = .inProgress l → (t ∈ l ↔ (attendance rid t a).active = true)) ∧
    (ans = .readFromCell → (attendance rid t a).exhausted = true ∧ (attendance rid t a).active = false) := by
  have hh : Always (fun a ev => ev = .read rid ans →
      (∀ l, ans = .inProgress l → (t ∈ l ↔ (attendance rid t a).active = true)) ∧
      (ans = .readFromCell → (attendance rid t a).exhausted = true ∧ (attendance rid t a).active = false))
      (proj ((init : Runs T).run acts) rid).evs := by
    refine always_run (I := SeenInv rid t) (fun acts => seenInv_run acts rid t) ?_ acts
    intro L L' ev hb hI hs he hev
    subst hev
    obtain ⟨evs, h1, h2⟩ := hs.step1 hb
    rw [he] at h2
    rw [← List.append_cancel_left h2] at h1
    exact read_attendance h1 hI.track.nodup hI.stands
  have := always_global hh h rfl rfl
  rwa [attendance_filter] at this

/-! ### Runners that are seen and runners that are not

In the run of `Sample.pulls`, which has handed out its tests, a runner that took part in it joins again, and one that did not. -/


example : (attendance "run" (Sample.w 2).tag ((init : Runs Nat).run Sample.pulls).events).seen = true ∧
    (attendance "run" (Sample.w 3).tag ((init : Runs Nat).run Sample.pulls).events).seen = false := by decide

example : ((init : Runs Nat).run (Sample.pulls ++ [.join (Sample.jp 2)])).pending[3]? = some (.joinRead (Sample.jp 2)) := rfl

/-- A runner that was never admitted is taken for a retry when it reported its completion before. -/
example : ((init : Runs Nat).run (Sample.pulls ++ [.request "run" (.complete (Sample.w 3) 0), .join (Sample.jp 3),
    .resume 3 .notFound true])).events.getLast? = some (.joined (Sample.jp 3) (.retry false)) := rfl

example : answer ((init : Runs Nat).run Sample.pulls) "run" .readCell =
      [.read "run" (readable [(Sample.w 1).tag, (Sample.w 2).tag])] ∧
    answer (((init : Runs Nat).run Sample.pulls).step (.request "run" (.cancel (Sample.w 1) .user))) "run" .readCell =
      [.read "run" (readable [(Sample.w 2).tag])] := ⟨rfl, rfl⟩

/-- Runner 1 was handed a test after it reported its completion, and is not taken to be at work. -/
example : ((init : Runs Nat).run (fetchAfterCompletion ++ [.request "run" .readCell])).events =
      ((init : Runs Nat).run fetchAfterCompletion).events ++ .read "run" .readFromCell :: [] ∧
    attendance "run" (Sample.w 1).tag ((init : Runs Nat).run fetchAfterCompletion).events =
      ⟨true, false, true, true, false⟩ := ⟨rfl, rfl⟩

end Abq.Props
