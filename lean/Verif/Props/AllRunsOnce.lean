import Verif.Props.AllRunsResults
import Verif.Proof.AllRunsOnce

/-! # Properties of `AllRuns`: waiting for the persisted manifest, and failing to write it (C22, C55) -/

namespace Abq.Props
open Abq Runs Spec WorkerSet
variable {T : Type}

/-- C22: until the manifest of an exhausted run is in storage, a worker that asks for its tests again is told to wait (unless the run was
taken over from the remote store or its manifest was empty). -/
theorem C22_told_to_wait (acts : List (RunsAct T)) (rid : RunId) (e : Entity)
    (h : phaseOf ((init : Runs T).run acts) rid = some .exhausted)
    (hst : ∀ v, (rid, v) ∉ ((init : Runs T).run acts).store)
    (hld : ((init : Runs T).run acts).events.any (isLoad rid) = false)
    (hem : ((init : Runs T).run acts).events.any (isEmptyManifest rid) = false) :
    answer ((init : Runs T).run acts) rid (.retryManifest e) = [.retry rid e .notYetPersisted] := by
  have hf := C22_fetch_only_when_stored acts rid e (T := T)
  have hemp := empty_state acts rid (T := T)
  obtain ⟨s, hs, hph⟩ := phaseOf_some h
  rw [answer_eq _ _ _ (by simp [Req.writes]), hs] at hf ⊢
  have hL : (proj ((init : Runs T).run acts) rid).s = some s := hs
  rw [hL] at hemp
  cases s with
  | done x md seen m hh =>
    cases m with
    | cell b =>
      cases b with
      | false => rfl
      | true =>
        rcases hf rfl with ⟨v, hv⟩ | h1
        · exact absurd hv (hst v)
        · rw [h1] at hld; cases hld
    | emptyManifest =>
      exfalso
      have h1 := hemp _ _ _ _ rfl
      rw [List.any_eq_true] at h1
      obtain ⟨ev, h2, h3⟩ := h1
      rw [List.any_eq_false] at hem
      exact hem ev (List.mem_filter.1 h2).1 h3
  | _ => cases hph

/-- Both workers took their tests and the last answer is not yet written: the manifest is not in storage. -/
example : phaseOf ((init : Runs Nat).run Sample.pulls) "run" = some .exhausted ∧
    ((init : Runs Nat).run Sample.pulls).store = [] ∧
    ((init : Runs Nat).run Sample.pulls).events.any (isLoad "run") = false ∧
    ((init : Runs Nat).run Sample.pulls).events.any (isEmptyManifest "run") = false := ⟨rfl, rfl, rfl, rfl⟩

theorem storing_of_task {rid : RunId} {p : Pending T} (h : persistenceTask rid p = true) :
    storing p = true ∧ p.rid = rid := by
  cases p with
  | respond r e items eow plan =>
    cases eow <;> cases plan <;> simp_all [persistenceTask, storing, Pending.rid]
  | dumpManifest => simpa [persistenceTask, storing, Pending.rid] using h
  | setPersisted => simpa [persistenceTask, storing, Pending.rid] using h
  | _ => simp [persistenceTask] at h

/-- C22: a manifest is persisted by one task: there are never two. -/
theorem C22_one_task (acts : List (RunsAct T)) (rid : RunId) :
    ((init : Runs T).run acts).pending.countP (persistenceTask rid) ≤ 1 := by
  refine Nat.le_trans ?_ (once_run acts rid (T := T)).one
  show _ ≤ (((init : Runs T).run acts).pending.filter _).countP storing
  rw [List.countP_filter]
  refine List.countP_mono_left fun p _ hp => ?_
  have := storing_of_task hp
  simp [this.1, this.2]

/-- C22, C55: if the task that persists the manifest of a run fails, by a failure to write the last bundle of tests to its worker or to write
the manifest, then whatever happens afterwards a worker that asks for its tests again is told to wait, and never to fetch them. -/
theorem C22_failed_write_never_fetched (acts more : List (RunsAct T)) (rid : RunId) (e : Entity) (i : Nat) (p : Pending T) (ans : RemoteAns)
    (hi : ((init : Runs T).run acts).pending[i]? = some p) (hp : persistenceTask rid p = true) (hns : p ≠ .setPersisted rid) :
    answer ((init : Runs T).run (acts ++ [.resume i ans false] ++ more)) rid (.retryManifest e) = [.retry rid e .notYetPersisted] := by
  have hone := once_run acts rid (T := T)
  have hcount := C22_one_task acts rid (T := T)
  obtain ⟨hsp, hpr⟩ := storing_of_task hp
  have hcell : CellIs false (((init : Runs T).run acts).get rid) := by
    refine hone.cell (List.countP_pos_iff.2 ⟨p, ?_, hsp⟩)
    exact List.mem_filter.2 ⟨List.mem_of_getElem? hi, by simp [hpr]⟩
  obtain ⟨x, md, seen, hh, hs⟩ : ∃ x md seen hh, ((init : Runs T).run acts).get rid = some (.done x md seen (.cell false) hh) := by
    cases hg : ((init : Runs T).run acts).get rid with
    | none => rw [hg] at hcell; exact hcell.elim
    | some s =>
      rw [hg] at hcell
      cases s with
      | done x md seen m hh =>
        cases m with
        | cell b => cases b with
          | false => exact ⟨_, _, _, _, rfl⟩
          | true => simp [CellIs] at hcell
        | emptyManifest => exact hcell.elim
      | _ => exact hcell.elim
  have hcont : p.writes = false ∧ (contEff (some (.done x md seen (.cell false) hh)) ans false p).next = [] ∧
      (contEff (some (.done x md seen (.cell false) hh)) ans false p).state = some (.done x md seen (.cell false) hh) := by
    cases p with
    | respond r e items eow plan => exact ⟨rfl, rfl, rfl⟩
    | dumpManifest r v => exact ⟨rfl, rfl, rfl⟩
    | setPersisted r =>
      obtain rfl : r = rid := hpr
      exact absurd rfl hns
    | _ => simp [persistenceTask] at hp
  obtain ⟨hw, hn, hstt⟩ := hcont
  have hstep : (init : Runs T).run (acts ++ [.resume i ans false]) =
      { ((init : Runs T).run acts) with pending := ((init : Runs T).run acts).pending.eraseIdx i }.apply p.rid
        (contEff (((init : Runs T).run acts).get p.rid) ans false p) := by
    rw [run_append]
    simp only [run, List.foldl_cons, List.foldl_nil, step] at hi ⊢
    rw [hi]
    simp only [hw, Bool.false_and, Bool.false_eq_true, if_false]
  rw [hpr, hs] at hstep
  obtain ⟨a, b, ha, hb⟩ := eraseIdx_split hi
  refine C55_stuck_for_ever (acts ++ [.resume i ans false]) rid e ?_ ?_ more e
  · have hget : ((init : Runs T).run (acts ++ [.resume i ans false])).get rid = some (.done x md seen (.cell false) hh) := by
      rw [hstep]
      have h1 := lookup_put ((init : Runs T).run acts).runs rid rid (some (.done x md seen (.cell false) hh)) (by simp)
      rw [if_pos rfl] at h1
      show List.lookup rid (put _ rid (contEff _ ans false p).state) = _
      rw [hstt]
      exact h1
    rw [answer_eq _ _ _ (by simp [Req.writes]), hget]
    rfl
  · intro q hq
    rw [hstep] at hq
    simp only [apply, hn, List.append_nil, hb] at hq
    cases hqt : persistenceTask rid q with
    | false => rfl
    | true =>
      exfalso
      rw [ha] at hcount
      have h1 : 0 < (a ++ b).countP (persistenceTask rid) := List.countP_pos_iff.2 ⟨q, hq, hqt⟩
      simp only [List.countP_append, List.countP_cons, hp, if_true] at hcount h1
      omega

/-- The manifest is about to be written. -/
example : ∃ v, ((init : Runs Nat).run (Sample.pulls ++ [.resume 1 .notFound true])).pending[2]? = some (.dumpManifest "run" v) ∧
    persistenceTask "run" (.dumpManifest "run" v : Pending Nat) = true := ⟨_, rfl, rfl⟩

/-- One task. -/
example : ((init : Runs Nat).run Sample.pulls).pending.countP (persistenceTask "run") = 1 := rfl

end Abq.Props
