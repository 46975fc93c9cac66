import Verif.Proof.Attempts
import Verif.Proof.RunnerEnd

/-! # What is reported in place of results, when the native runner crashed, is the last of a runner (C115, C116) -/

namespace Abq.RunnerEnd
open Abq.MsgBuf Abq.Buffered
open Abq.Retries Abq.Pipe Abq.Fetch Abq.Fetch.Spec

/-- Results of the native runner. -/
def Own (x : Results) : Prop := ∀ y ∈ x.results, y.id ≠ 0

/-- Nothing went wrong so far. -/
def Clean (p : Pipe) : Prop :=
  (∀ x ∈ allResults p, Own x) ∧
  match p.runner with
  | .sending (.results r) => Own r
  | .flushing _ => False
  | .failing _ => False
  | .closed true => False
  | _ => True

theorem clean_same {p q : Pipe} (h : Clean p) (hr : q.runner = p.runner) (hd : allResults q = allResults p) : Clean q := by
  unfold Clean at *
  rw [hr, hd]
  exact h

/-- Nothing went wrong, or the native runner crashed and nothing but placeholders came after. -/
def SoFar (p : Pipe) : Prop := Clean p ∨ ∃ w X, (∀ x ∈ X, Own x) ∧ Failed w X p

theorem clean_idle {q : Pipe} (h : ∀ x ∈ allResults q, Own x)
    (hr : q.runner = .closed false ∨ (∃ w, q.runner = .running w) ∨ q.runner = .sending .forceFlush ∨
      q.runner = .receiving) : Clean q := by
  refine ⟨h, ?_⟩
  rcases hr with e | ⟨w, e⟩ | e | e <;> rw [e] <;> trivial

theorem clean_step {p : Pipe} (h : Clean p) (a : Pipe.Act) (ha : ∀ rs, a = .result rs → ∀ y ∈ rs, y.id ≠ 0) :
    SoFar (Pipe.step p a) := by
  cases a with
  | fetch =>
    refine .inl (clean_same h ?_ ?_)
    · simp only [Pipe.step, Pipe.fetch]; repeat' split
      all_goals rfl
    · simp only [Pipe.step, Pipe.fetch]; repeat' split
      all_goals rfl
  | produce => exact .inl (clean_same h rfl rfl)
  | consume =>
    left
    simp only [Pipe.step, Pipe.consume]
    split
    · refine clean_idle (q := { p with buf := p.buf.consume, runner := afterRecv p.buf p.buf.consume }) h.1 ?_
      rcases afterRecv_cases p.buf p.buf.consume with e | ⟨w, e⟩ | e | e <;> simp [e]
    · rename_i w hr
      have := h.2
      rw [hr] at this
      exact this.elim
    · exact h
  | result rs =>
    left
    simp only [Pipe.step, Pipe.result]
    split
    · rename_i w hr
      exact ⟨h.1, fun y hy => ha rs rfl y hy⟩
    · exact h
  | crash =>
    simp only [Pipe.step, Pipe.crash]
    split
    · rename_i w hr
      exact .inr ⟨w, allResults p, h.1, rfl, rfl⟩
    · exact .inl h
  | timeout =>
    simp only [Pipe.step, Pipe.timeout]
    split
    · exact .inr ⟨_, allResults p, h.1, rfl, rfl⟩
    · exact .inl h
  | send =>
    left
    simp only [Pipe.step, Pipe.send]
    split
    · rename_i m hr
      split
      · refine clean_idle ?_ (.inr (.inr (.inr rfl)))
        intro x hx
        rw [allResults_send] at hx
        rcases List.mem_append.mp hx with hx | hx
        · exact h.1 x hx
        · have h2 := h.2
          rw [hr] at h2
          cases m with
          | results r =>
            have : x = r := by simpa [chanResults] using hx
            rw [this]; exact h2
          | forceFlush => simp [chanResults] at hx
      · exact h
    · rename_i r rs hr
      have := h.2
      rw [hr] at this
      exact this.elim
    · exact h
  | take =>
    left
    simp only [Pipe.step, Pipe.take]
    split
    · rename_i r ms hc
      refine clean_same h rfl ?_
      have := (push_sent p.out r).1
      simp only [allResults, Pipe.handle, this, hc]
      simp [chanResults]
    · rename_i ms hc
      refine clean_same h rfl ?_
      have := (flush_sent p.out).1
      simp only [allResults, Pipe.handle, this, hc]
      simp [chanResults]
    · split
      · split
        · exact h
        · refine clean_same h rfl ?_
          have := (flush_sent p.out).1
          simp only [allResults, Pipe.handle, this]
      · exact h

theorem failed_over {w : Retries.WorkerTest} {X : List Results} {p : Pipe} (h : Failed w X p) : Over p := by
  unfold Failed at h
  split at h
  · rename_i v hv; exact .inl ⟨v, hv⟩
  · rename_i rs hv; exact .inr (.inl ⟨rs, hv⟩)
  · rename_i hv; exact .inr (.inr ⟨true, hv⟩)
  · exact h.elim

/-- Unless the native runner could not be restarted. -/
def SoFarLife (l : Life) : Prop := l.failed = true ∨ SoFar l.pipe

theorem so_far_step {l : Life} (h : SoFarLife l) (a : Act) (ha : ∀ rs, a = .pipe (.result rs) → ∀ y ∈ rs, y.id ≠ 0) :
    SoFarLife (l.step a) := by
  cases a with
  | pipe a =>
    rcases h with h | h | ⟨w, X, hX, h⟩
    · exact .inl h
    · exact .inr (clean_step h a fun rs e => ha rs (by rw [e]))
    · exact .inr (.inr ⟨w, X, hX, failed_step h a⟩)
  | restartFails =>
    simp only [Life.step]
    split
    · split
      · exact .inl rfl
      · exact h
    · exact h
  | notify =>
    simp only [Life.step]
    repeat' split
    all_goals exact h

theorem so_far_run {l : Life} (h : SoFarLife l) (as : List Act)
    (ha : ∀ rs, .pipe (.result rs) ∈ as → ∀ y ∈ rs, y.id ≠ 0) : SoFarLife (l.run as) := by
  induction as generalizing l with
  | nil => exact h
  | cons a as ih =>
    rw [run_cons]
    exact ih (so_far_step h a fun rs e => ha rs (by rw [e]; simp)) fun rs hm => ha rs (List.mem_cons_of_mem _ hm)

theorem so_far_init (src : List (List Fetch.Resp)) (mx n : Nat) : SoFarLife (init src mx n) := by
  refine .inr (.inl ⟨?_, trivial⟩)
  intro x hx
  cases hx

/-- No attempt of a runner is higher than that of a placeholder. -/
theorem placeholder_last {mx : Nat} (hmx : 1 ≤ mx) {src : List (List Fetch.Resp)} (wf : WellFormed src) (n : Nat) (as : List Act)
    (ha : ∀ rs, .pipe (.result rs) ∈ as → ∀ y ∈ rs, y.id ≠ 0) (hf : ((init src mx n).run as).failed = false)
    (hfin : ((init src mx n).run as).finished = true) (x : Results) (hx : x ∈ ((init src mx n).run as).pipe.reported)
    (hc : ∃ y ∈ x.results, y.id = 0) : ∀ y ∈ ((init src mx n).run as).pipe.reported, y.runNumber ≤ x.runNumber := by
  have hpi : PI mx src ((init src mx n).run as).pipe := pi_life hmx wf n as hf
  simp only [Life.finished, Bool.and_eq_true] at hfin
  obtain ⟨⟨f, hr⟩, hch, hb⟩ := finished_all hpi hfin.1
  have hkeys : ((init src mx n).run as).pipe.reported.map keyOf = ((init src mx n).run as).pipe.sys.given.map key :=
    finished_flow hpi hfin.1
  have hall : allResults ((init src mx n).run as).pipe = ((init src mx n).run as).pipe.reported := by
    rw [allResults, hch, hb]
    simp only [chanResults, List.filterMap_nil, List.append_nil]
    rfl
  rcases so_far_run (so_far_init src mx n) as ha with h | h | ⟨w, X, hX, h⟩
  · rw [hf] at h; cases h
  · obtain ⟨y, hy, hy0⟩ := hc
    exact absurd hy0 (h.1 x (by rw [hall]; exact hx) y hy)
  · obtain ⟨rem, hrem⟩ : ∃ rem, allResults ((init src mx n).run as).pipe = X ++ failureResults w rem := by
      unfold Failed at h
      rw [hr] at h
      cases f with
      | true => exact h
      | false => exact h.elim
    rw [hall] at hrem
    have hwr : ∀ z ∈ failureResults w rem, z.runNumber = w.runNumber := by
      intro z hz
      obtain ⟨id, -, rfl⟩ := List.mem_map.mp hz
      rfl
    have hxf : x ∈ failureResults w rem := by
      rw [hrem] at hx
      rcases List.mem_append.mp hx with hx | hx
      · obtain ⟨y, hy, hy0⟩ := hc
        exact absurd hy0 (hX x hx y hy)
      · exact hx
    obtain ⟨cs, hcs⟩ := EndToEnd.sys_life_run (init src mx n) as
    have hsort : ((init src mx n).run as).pipe.sys.given.Pairwise fun w w' => w.runNumber ≤ w'.runNumber := by
      rw [hcs]
      exact EndToEnd.given_sorted hmx wf cs
    have hs2 : (((init src mx n).run as).pipe.reported.map keyOf).Pairwise fun k k' => k.2 ≤ k'.2 := by
      rw [hkeys, List.pairwise_map]
      exact hsort
    rw [List.pairwise_map, hrem, List.pairwise_append] at hs2
    intro y hy
    rw [hrem] at hy
    rcases List.mem_append.mp hy with hy | hy
    · exact hs2.2.2 y hy x hxf
    · rw [hwr y hy, hwr x hxf]
      exact Nat.le_refl _

end Abq.RunnerEnd
