import Verif.Proof.Answers
import Verif.Props.AllRunsLife
import Verif.Props.RunEnds

/-! # Every request is answered, once (C111) -/

namespace Abq.Props
open Abq.Runs Abq.Spec
variable {T : Type}

/-- **C111.** Every request to join a run is answered exactly once or still open, and nothing else is answered. -/
theorem C111_joins (acts : List (RunsAct T)) :
    (joinsAnswered ((init : Runs T).run acts).events ++ joinsOpen ((init : Runs T).run acts)).Perm (joinsAsked acts) :=
  joinLedger_run init acts

/-- **C111.** An answer to a request for tests, made for one runner, is written once, unchanged, to that runner's connection,
or lost once, or still to be written. -/
theorem C111_sent (acts : List (RunsAct T)) :
    (answersWritten ((init : Runs T).run acts).events ++ answersLost ((init : Runs T).run acts).events ++
      answersOpen ((init : Runs T).run acts)).Perm (answersMade ((init : Runs T).run acts).events) := by
  refine List.Perm.trans ?_ (sent_run acts (init : Runs T) (List.Perm.refl _))
  refine List.Perm.append_right _ ?_
  generalize ((init : Runs T).run acts).events = evs
  induction evs with
  | nil => exact List.Perm.refl _
  | cons ev evs ih =>
    simp only [answersWritten, answersLost, List.flatMap_cons] at ih ⊢
    cases ev
    case delivered => exact List.Perm.cons _ ih
    case lost => exact List.perm_middle.trans (List.Perm.cons _ ih)
    all_goals exact ih

theorem known_step (acts : List (RunsAct T)) (rid : RunId) (a : RunsAct T)
    (h : (((init : Runs T).run acts).get rid).isSome) : (((init : Runs T).run (acts ++ [a])).get rid).isSome := by
  rw [run_append]
  have := run_proj_induction (rid := rid) (I := fun L => L.s ≠ none)
    (fun L L' hn hs => by
      obtain ⟨w, evs, hc, -, -⟩ := hs.change
      exact isSome_change hc hn)
    ((init : Runs T).run acts) (by intro hn; change ((init : Runs T).run acts).get rid = none at hn; simp [hn] at h) [a]
  change (((init : Runs T).run acts).run [a]).get rid ≠ none at this
  exact Option.isSome_iff_ne_none.2 this

theorem test_ledger_step (acts : List (RunsAct T)) (rid : RunId) (a : RunsAct T)
    (h : (((init : Runs T).run acts).get rid).isSome) :
    ((testLedger rid).of ((init : Runs T).run (acts ++ [a]))).Perm
      ((testLedger rid).of ((init : Runs T).run acts) ++ (testLedger rid).act a) := by
  have hp : ∀ r, .panicked r ∉ ((init : Runs T).run (acts ++ [a])).events := fun r => C56_no_panic _ r
  rw [run_append] at hp ⊢
  change ∀ r, .panicked r ∉ (((init : Runs T).run acts).step a).events at hp
  change ((testLedger rid).of (((init : Runs T).run acts).step a)).Perm _
  generalize hσ : (init : Runs T).run acts = σ at *
  refine (testLedger rid).step σ a ?_ ?_ ?_ ?_ ?_
  · rintro p rfl
    cases σ.get p.rid <;> exact List.Perm.refl _
  · rintro r q rfl hw
    rw [testLedger_exec]
    · rintro rfl; exact h
    · intro r' hm
      refine hp r' ?_
      simp only [Runs.step, hw, Bool.false_eq_true, if_false, Runs.apply]
      exact List.mem_append_right _ hm
  · rintro r q rfl hw
    cases q <;> simp [Req.writes] at hw <;> rfl
  · rintro i ans ok rfl; rfl
  · rintro i ans ok p rfl hm hw
    rw [testLedger_cont]
    · rintro rfl; exact h
    · intro r' hm'
      refine hp r' ?_
      simp only [Runs.step, hm, hw, Bool.false_eq_true, if_false, Runs.apply]
      exact List.mem_append_right _ hm'

theorem filterMap_flat {α β : Type} (f : α → Option β) (l : List α) : l.filterMap f = l.flatMap (fun a => (f a).toList) := by
  induction l with
  | nil => rfl
  | cons a l ih =>
    rw [List.filterMap_cons, List.flatMap_cons, ← ih]
    cases f a <;> rfl

theorem testLedger_of (rid : RunId) (σ : Runs T) :
    (testLedger rid).of σ = Spec.answered rid σ.events ++ asking rid σ := by
  simp only [Ledger.of, Spec.answered, asking, filterMap_flat]
  congr 1
  · congr 1; funext ev; cases ev <;> simp only [testLedger, Option.toList_none]
    split <;> rfl
  · congr 1; funext p; cases p <;> simp only [testLedger, Option.toList_none] <;> split <;> rfl

/-- **C111.** From when a run is known, every request for its tests is answered exactly once, to the runner that made it, or
still open, and nothing else is answered. -/
theorem C111_tests (acts more : List (RunsAct T)) (rid : RunId)
    (h : (phaseOf ((init : Runs T).run acts) rid).isSome) :
    (Spec.answered rid ((init : Runs T).run (acts ++ more)).events ++ asking rid ((init : Runs T).run (acts ++ more))).Perm
      (Spec.answered rid ((init : Runs T).run acts).events ++ asking rid ((init : Runs T).run acts) ++ testsAsked rid more) := by
  have h : (((init : Runs T).run acts).get rid).isSome := by simpa [phaseOf] using h
  rw [← testLedger_of, ← testLedger_of]
  change List.Perm _ (_ ++ more.flatMap (testLedger rid).act)
  induction more generalizing acts with
  | nil => simp
  | cons a more ih =>
    rw [show acts ++ a :: more = (acts ++ [a]) ++ more by simp, List.flatMap_cons, ← List.append_assoc]
    exact (ih (acts ++ [a]) (by simpa [phaseOf] using known_step acts rid a h) (known_step acts rid a h)).trans (List.Perm.append_right _ (test_ledger_step acts rid a h))

/-- **C111.** Any other request is answered at once, by one answer about its run; a request that changes the state of the run
only when no request for tests is being answered. -/
theorem C111_others (acts : List (RunsAct T)) (rid : RunId) (r : Req T)
    (h : asking rid ((init : Runs T).run acts) = [] ∨
      (match r with
        | .initMetadata _ | .retryManifest _ | .complete .. | .writeCell | .readCell | .status => True
        | _ => False)) (hr : ∀ e, r ≠ .nextWork e) :
    ∃ ev, ev.rid = rid ∧ ((init : Runs T).run (acts ++ [.request rid r])).events = ((init : Runs T).run acts).events ++ [ev] := by
  rw [run_append]
  change ∃ ev, _ ∧ (((init : Runs T).run acts).step (.request rid r)).events = _
  generalize (init : Runs T).run acts = σ at h
  have hw : (r.writes && σ.readLocked rid) = false := by
    rcases h with h | h
    · have : σ.readLocked rid = false := by
        simp only [Runs.readLocked, List.any_eq_false, Bool.and_eq_true, beq_iff_eq, not_and, Bool.not_eq_true]
        intro p hp hrid
        have h1 := List.filterMap_eq_nil_iff.1 h p hp
        cases p <;> simp_all [Pending.reads, Pending.rid]
      rw [this, Bool.and_false]
    · cases r <;> first | rfl | exact h.elim
  simp only [Runs.step, hw, Bool.false_eq_true, if_false, Runs.apply]
  cases hs : σ.get rid with
  | none => exact ⟨_, rfl, rfl⟩
  | some s =>
    cases r <;> simp only [reqEff, exec]
    case nextWork e => exact absurd rfl (hr e)
    all_goals exact ⟨_, rfl, rfl⟩

/-- How many steps a request to join needs. -/
def joinSteps : Pending T → Nat
  | .joinRemote _ => 2
  | .joinRead _ => 1
  | _ => 0

theorem joinSteps_zero {p : Pending T} (h : joinSteps p = 0) : joinLedger.ps p = [] := by
  cases p <;> first | rfl | cases h

theorem joinSteps_le (p : Pending T) : joinSteps p ≤ 2 * (joinLedger.ps p).length := by
  cases p <;> simp [joinSteps, joinLedger]

theorem joinSteps_cont (s : Option (RunState T)) (ans : RemoteAns) (p : Pending T) (h : joinSteps p ≠ 0) :
    ((contEff s ans true p).next.map joinSteps).sum < joinSteps p := by
  cases p
  case joinRemote => cases ans <;> cases s <;> simp [contEff, loadRemote, createFresh, joinSteps]
  case joinRead => cases s <;> simp [contEff, joinSteps]
  all_goals exact absurd rfl h

theorem joinDrain (ans : RemoteAns) : ∀ (n : Nat) (acts : List (RunsAct T)),
    (((init : Runs T).run acts).pending.map joinSteps).sum = n →
    ∃ more, (∀ x ∈ more, ∃ i, x = .resume i ans true) ∧ more.length ≤ n ∧
      joinsOpen ((init : Runs T).run (acts ++ more)) = [] := by
  intro n
  induction n using Nat.strongRecOn with
  | _ n ih =>
    intro acts hn
    by_cases hp : ∃ p ∈ ((init : Runs T).run acts).pending, joinSteps p ≠ 0
    · obtain ⟨p, hm, hp⟩ := hp
      obtain ⟨a, b, hab⟩ := List.append_of_mem hm
      have hg : ((init : Runs T).run acts).pending[a.length]? = some p := by rw [hab]; simp
      have hs := step_resume ((init : Runs T).run acts) a.length ans true p hg
        (by cases p <;> simp [Pending.writes] <;> exact absurd rfl hp)
      have he : ((init : Runs T).run acts).pending.eraseIdx a.length = a ++ b := by
        rw [hab, List.eraseIdx_append_of_length_le (Nat.le_refl _)]; simp
      have hlt : (((init : Runs T).run (acts ++ [.resume a.length ans true])).pending.map joinSteps).sum < n := by
        rw [run_append]
        rw [show ∀ x, ((init : Runs T).run acts).run [x] = ((init : Runs T).run acts).step x from fun _ => rfl, hs]
        simp only [Runs.apply, he, List.map_append, List.sum_append]
        have := joinSteps_cont (((init : Runs T).run acts).get p.rid) ans p hp
        rw [hab] at hn
        simp only [List.map_append, List.map_cons, List.sum_append, List.sum_cons] at hn
        omega
      obtain ⟨more, h1, h2, h3⟩ := ih _ hlt _ rfl
      refine ⟨.resume a.length ans true :: more, ?_, ?_, ?_⟩
      · intro x hx
        rcases List.mem_cons.1 hx with rfl | hx
        · exact ⟨_, rfl⟩
        · exact h1 x hx
      · rw [List.length_cons]; omega
      · rw [List.append_assoc] at h3
        exact h3
    · refine ⟨[], by simp, by simp, ?_⟩
      rw [List.append_nil]
      refine List.flatMap_eq_nil_iff.2 fun p hm => ?_
      exact joinSteps_zero (Classical.byContradiction fun hc => hp ⟨p, hm, hc⟩)

/-- **C111.** Requests to join are not stuck: whatever is going on in the queue and whatever the remote store answers, at most
two steps for each of them answer all of them. -/
theorem C111_joins_never_stuck (acts : List (RunsAct T)) (ans : RemoteAns) :
    ∃ more : List (RunsAct T), (∀ x ∈ more, ∃ i, x = .resume i ans true) ∧
      more.length ≤ 2 * (joinsOpen ((init : Runs T).run acts)).length ∧
      joinsOpen ((init : Runs T).run (acts ++ more)) = [] ∧
      (joinsAnswered ((init : Runs T).run (acts ++ more)).events).Perm (joinsAsked acts) := by
  obtain ⟨more, h1, h2, h3⟩ := joinDrain ans _ acts rfl
  refine ⟨more, h1, Nat.le_trans h2 ?_, h3, ?_⟩
  · change _ ≤ 2 * (((init : Runs T).run acts).pending.flatMap joinLedger.ps).length
    generalize ((init : Runs T).run acts).pending = ps
    induction ps with
    | nil => simp
    | cons p ps ih =>
      rw [List.map_cons, List.sum_cons, List.flatMap_cons, List.length_append]
      have := joinSteps_le p
      omega
  · have h4 := C111_joins (acts ++ more)
    rw [h3, List.append_nil] at h4
    have h5 : joinsAsked more = [] := by
      refine List.flatMap_eq_nil_iff.2 fun x hx => ?_
      obtain ⟨i, rfl⟩ := h1 x hx
      rfl
    simp only [joinsAsked, List.flatMap_append] at h4 h5 ⊢
    rwa [h5, List.append_nil] at h4

/-! ## Examples -/

/-- Two workers join at once; the first is answered by the remote store, the second reads the registry. -/
def twoJoin : List (RunsAct Nat) :=
  [.join (Sample.jp 1), .join (Sample.jp 2), .resume 1 .notFound true]

example : joinsAsked twoJoin = [Sample.jp 1, Sample.jp 2] ∧
    joinsAnswered ((init : Runs Nat).run twoJoin).events = [Sample.jp 2] ∧
    joinsOpen ((init : Runs Nat).run twoJoin) = [Sample.jp 1] := ⟨rfl, rfl, rfl⟩

/-- Two answers made, the first written, the second still open, and then lost. -/
example : answersMade ((init : Runs Nat).run (Sample.pulls)).events =
      [("run", Sample.w 1, [⟨10, 1⟩], false), ("run", Sample.w 2, [⟨11, 1⟩], true)] ∧
    answersWritten ((init : Runs Nat).run (Sample.pulls)).events = [("run", Sample.w 1, [⟨10, 1⟩], false)] ∧
    answersOpen ((init : Runs Nat).run (Sample.pulls)) = [("run", Sample.w 2, [⟨11, 1⟩], true)] ∧
    answersLost ((init : Runs Nat).run (Sample.pulls ++ [.resume 1 .notFound false])).events =
      [("run", Sample.w 2, [⟨11, 1⟩], true)] := ⟨by decide, by decide, by decide, by decide⟩

example : asking "run" ((init : Runs Nat).run threeAsk) = [Sample.w 1, Sample.w 2, Sample.w 1] ∧
    testsAsked "run" threeAsk = [Sample.w 1, Sample.w 2, Sample.w 1] ∧
    (phaseOf ((init : Runs Nat).run Sample.serving) "run").isSome = true := by decide

/-- A cancellation waits for the requests for tests that are being answered, and is then answered at once. -/
example : ((init : Runs Nat).run (threeAsk ++ [.request "run" (.cancel (Sample.w 1) .user)])).events.length =
      ((init : Runs Nat).run threeAsk).events.length ∧
    asking "run" ((init : Runs Nat).run threeAnswers) = [] := by decide

end Abq.Props
