import Verif.Spec.Progress
import Verif.Proof.Recording
import Verif.Proof.ResultsLive

/-! # Progress of the queue as a whole (C148) -/

namespace Abq.Recording
open Abq.ResultsLive
open Abq.Results.Spec (begun over admitted served Job job planned)
variable {T : Type} {enc : Report.Line → Results.Bytes}

theorem at_succ (σ : State T) (f : Nat → Act T) (n : Nat) : σ.at enc f (n + 1) = (σ.at enc f n).step enc (f n) := by
  simp [State.at, List.range_succ, State.run, List.foldl_append]

/-- What a step does to the file of a run. -/
def Moves (σ τ : State T) (rid : RunId) : Prop :=
  τ.files rid = σ.files rid ∨ ∃ b, τ.files rid = Results.step (σ.files rid) b

theorem moves_file (σ : State T) (r rid : RunId) (b : Results.Act) : Moves σ (σ.file r b) rid := by
  by_cases h : rid = r
  · subst h; exact .inr ⟨b, by simp [State.file]⟩
  · exact .inl (by simp [State.file, h])

theorem moves_step (σ : State T) (a : Act T) (rid : RunId) : Moves σ (σ.step enc a) rid := by
  cases a with
  | call a => exact .inl rfl
  | report r gs => simp only [State.step]; split <;> exact .inl rfl
  | handle i =>
    simp only [State.step]
    split
    · exact .inl rfl
    · rename_i h hi
      cases h with
      | summary r n e => exact moves_file (State.label { σ with handlers := σ.handlers.eraseIdx i } r (.summary n)) r rid _
      | results r gs e => exact moves_file (State.label { σ with handlers := σ.handlers.eraseIdx i } r (.results gs)) r rid _
      | read r => exact moves_file { σ with handlers := σ.handlers.eraseIdx i } r rid _
  | task r i out => exact moves_file σ r rid _
  | offload r c now accessed o => exact moves_file σ r rid _

/-- The files of a run keep their books. -/
def AllBooks (σ : State T) : Prop := ∀ rid, Books (σ.files rid)

theorem books_moves {σ τ : State T} {rid : RunId} (h : Books (σ.files rid)) (hm : Moves σ τ rid) : Books (τ.files rid) := by
  rcases hm with e | ⟨b, e⟩ <;> rw [e]
  · exact h
  · exact books_step h b

theorem known_moves {σ τ : State T} {rid : RunId} {j : Job} (h : ResultsLive.Known (σ.files rid) j) (hm : Moves σ τ rid) :
    ResultsLive.Known (τ.files rid) j := by
  rcases hm with e | ⟨b, e⟩ <;> rw [e]
  · exact h
  · exact known_step h b

theorem left_moves {σ τ : State T} {rid : RunId} {j : Job} (hb : Books (σ.files rid)) (hk : ResultsLive.Known (σ.files rid) j)
    (hm : Moves σ τ rid) : left j (τ.files rid).tasks ≤ left j (σ.files rid).tasks := by
  rcases hm with e | ⟨b, e⟩ <;> rw [e]
  · exact Nat.le_refl _
  · exact left_step hb hk b

theorem books_all (enc : Report.Line → Results.Bytes) (noop : Bool) (acts : List (Act T)) (rid : RunId) :
    Books (((init T noop).run enc acts).files rid) := by
  suffices h : ∀ (acts : List (Act T)) (σ : State T), Books (σ.files rid) → Books ((σ.run enc acts).files rid) from
    h acts _ (books_init ..)
  intro acts
  induction acts with
  | nil => exact fun _ h => h
  | cons a acts ih => exact fun σ h => ih _ (books_moves h (moves_step σ a rid))

section
variable {σ : State T} {f : Nat → Act T} {rid : RunId}

theorem at_books (hb : Books (σ.files rid)) (n : Nat) : Books ((σ.at enc f n).files rid) := by
  induction n with
  | zero => exact hb
  | succ n ih => rw [at_succ]; exact books_moves ih (moves_step _ _ rid)

theorem at_known {j : Job} {n m : Nat} (hnm : n ≤ m) (hk : ResultsLive.Known ((σ.at enc f n).files rid) j) :
    ResultsLive.Known ((σ.at enc f m).files rid) j := by
  induction hnm with
  | refl => exact hk
  | step _ ih => rw [at_succ]; exact known_moves ih (moves_step _ _ rid)

theorem at_left (hb : Books (σ.files rid)) {j : Job} {n m : Nat} (hnm : n ≤ m) (hk : ResultsLive.Known ((σ.at enc f n).files rid) j) :
    left j ((σ.at enc f m).files rid).tasks ≤ left j ((σ.at enc f n).files rid).tasks := by
  induction hnm with
  | refl => exact Nat.le_refl _
  | @step k h ih =>
    rw [at_succ]
    exact Nat.le_trans (left_moves (at_books hb k) (at_known h hk) (moves_step _ _ rid)) ih

/-- What was begun at some time comes to its end. -/
theorem at_ends (hb : Books (σ.files rid)) (hg : FileGoesOn enc σ f rid) {j : Job} {n : Nat}
    (hk : ResultsLive.Known ((σ.at enc f n).files rid) j) :
    ∃ N, n ≤ N ∧ ∀ m, N ≤ m → left j ((σ.at enc f m).files rid).tasks = 0 := by
  suffices h : ∀ k m, n ≤ m → left j ((σ.at enc f m).files rid).tasks ≤ k →
      ∃ N, n ≤ N ∧ left j ((σ.at enc f N).files rid).tasks = 0 by
    obtain ⟨N, hn, hN⟩ := h _ n (Nat.le_refl _) (Nat.le_refl _)
    exact ⟨N, hn, fun m hm => Nat.le_zero.mp (hN ▸ at_left hb hm (at_known hn hk))⟩
  intro k
  induction k with
  | zero => exact fun m hm h => ⟨m, hm, Nat.le_zero.mp h⟩
  | succ k ih =>
    intro m hm h
    by_cases h0 : left j ((σ.at enc f m).files rid).tasks = 0
    · exact ⟨m, hm, h0⟩
    obtain ⟨p, hp, i, out, t, hf, ht, hj⟩ := hg m j (left_pos h0)
    refine ih (p + 1) (by omega) ?_
    have h1 := (left_resume out ht j).2 hj
    have h2 := at_left hb hp (at_known hm hk)
    have h3 : (σ.at enc f (p + 1)).files rid = Results.step ((σ.at enc f p).files rid) (.resume i out) := by
      rw [at_succ, hf]; simp [State.step, State.file]
    rw [h3]
    omega

theorem at_inv {noop : Bool} (hi : Inv enc noop σ) (n : Nat) : Inv enc noop (σ.at enc f n) := by
  induction n with
  | zero => exact hi
  | succ n ih => rw [at_succ]; exact inv_step ih _

/-- Lines are only added. -/
theorem at_log {n m : Nat} (h : n ≤ m) : ∃ more, (σ.at enc f m).log = (σ.at enc f n).log ++ more := by
  obtain ⟨d, rfl⟩ := Nat.exists_eq_add_of_le h
  clear h
  induction d with
  | zero => exact ⟨[], (List.append_nil _).symm⟩
  | succ d ih =>
    obtain ⟨more, ih⟩ := ih
    obtain ⟨new, hn, -⟩ := step_log enc (σ.at enc f (n + d)) (f (n + d))
    exact ⟨more ++ new, by rw [← Nat.add_assoc, at_succ, hn, ih, List.append_assoc]⟩

theorem mem_fileEvents {log : List (Obs T)} {ev : Results.Ev} (h : ev ∈ fileEvents rid log) : Obs.file rid ev ∈ log := by
  obtain ⟨o, ho, he⟩ := List.mem_filterMap.mp h
  cases o with
  | file r e =>
    by_cases hr : r = rid
    · simp only [hr, if_true] at he
      cases he
      rwa [hr] at ho
    · simp only [hr, if_false] at he
      cases he
  | _ => cases he

theorem at_lines {n m : Nat} (h : n ≤ m) : ((σ.at enc f n).lines rid).length ≤ ((σ.at enc f m).lines rid).length := by
  induction h with
  | refl => exact Nat.le_refl _
  | @step k h ih =>
    rw [at_succ]
    obtain ⟨new, -, -, hl⟩ := step_log enc (σ.at enc f k) (f k)
    obtain ⟨l, hl⟩ := hl rid
    rw [hl, List.length_append]
    omega

/-- One is when a handler with something to record goes on. -/
theorem lines_handle {τ : State T} {i : Nat} {h : Handler} (hi : τ.handlers[i]? = some h) (hw : waiting rid [h] ≠ []) :
    ((τ.step enc (.handle i)).lines rid).length = (τ.lines rid).length + 1 := by
  simp only [State.step, hi]
  cases h with
  | summary r n e =>
    rw [waiting_summary] at hw
    split at hw
    · rename_i hr; subst hr; simp [State.handle, State.label, State.file]
    · exact (hw rfl).elim
  | results r gs e =>
    rw [waiting_results] at hw
    split at hw
    · rename_i hr; subst hr; simp [State.handle, State.label, State.file]
    · exact (hw rfl).elim
  | read r => exact (hw rfl).elim

/-- In the end all that was taken for the run is begun to be recorded. -/
theorem all_begun {noop : Bool} (hi : Inv enc noop σ) (hq : TakesNoMore enc σ f rid) (hg : RecordersGoOn enc σ f rid) :
    ∃ N, ∀ n, N ≤ n → waiting rid (σ.at enc f n).handlers = [] := by
  have count : ∀ n, (due rid σ.log).length = ((σ.at enc f n).lines rid).length + (waiting rid (σ.at enc f n).handlers).length := by
    intro n
    have := ((at_inv (f := f) hi n).due rid).length_eq
    rwa [hq n, List.length_append] at this
  suffices h : ∀ k n, (waiting rid (σ.at enc f n).handlers).length ≤ k → ∃ N, waiting rid (σ.at enc f N).handlers = [] by
    obtain ⟨N, hN⟩ := h _ 0 (Nat.le_refl _)
    refine ⟨N, fun n hn => List.eq_nil_of_length_eq_zero ?_⟩
    have h1 := count N
    have h2 := count n
    have h3 := at_lines (enc := enc) (σ := σ) (f := f) (rid := rid) hn
    rw [hN, List.length_nil] at h1
    omega
  intro k
  induction k with
  | zero => exact fun n h => ⟨n, List.eq_nil_of_length_eq_zero (Nat.le_zero.mp h)⟩
  | succ k ih =>
    intro n h
    by_cases h0 : waiting rid (σ.at enc f n).handlers = []
    · exact ⟨n, h0⟩
    obtain ⟨m, hm, i, hd, hf, hh, hw⟩ := hg n h0
    refine ih (m + 1) ?_
    have h1 := lines_handle (enc := enc) (rid := rid) hh hw
    rw [← hf, ← at_succ] at h1
    have h2 := at_lines (enc := enc) (σ := σ) (f := f) (rid := rid) hm
    have h3 := count n
    have h4 := count (m + 1)
    omega

theorem begun_planned (evs : List Results.Ev) : begun evs = (planned evs).map (·.1) := by
  induction evs with
  | nil => rfl
  | cons e evs ih => cases e <;> simp_all [begun, planned]

/-- In the end it is recorded, whether that succeeds or not. -/
theorem all_over {noop : Bool} (hi : Inv enc noop σ) (hb : Books (σ.files rid)) (hq : TakesNoMore enc σ f rid)
    (hg : RecordersGoOn enc σ f rid) (hf : FileGoesOn enc σ f rid) :
    ∃ N, ∀ n, N ≤ n → waiting rid (σ.at enc f n).handlers = [] ∧
      (∀ id ∈ begun ((σ.at enc f n).files rid).events, id ∈ over ((σ.at enc f n).files rid).events) := by
  obtain ⟨N, hN⟩ := all_begun hi hq hg
  have hall : ∀ l : List Nat, (∀ id ∈ l, id ∈ begun ((σ.at enc f N).files rid).events) →
      ∃ M, N ≤ M ∧ ∀ n, M ≤ n → ∀ id ∈ l, id ∈ over ((σ.at enc f n).files rid).events := by
    intro l
    induction l with
    | nil => exact fun _ => ⟨N, Nat.le_refl _, fun _ _ _ h => by simp at h⟩
    | cons x l ih =>
      intro h
      obtain ⟨M, hNM, hM⟩ := ih fun id hid => h id (by simp [hid])
      have hk : ResultsLive.Known ((σ.at enc f N).files rid) (.recording x) := h x (by simp)
      obtain ⟨K, hNK, hK⟩ := at_ends (enc := enc) (f := f) hb hf hk
      refine ⟨max M K, by omega, fun n hn id hid => ?_⟩
      rcases List.mem_cons.mp hid with rfl | hid
      · exact over_of_left (at_books hb n) (at_known (j := .recording id) (by omega) hk) (hK n (by omega))
      · exact hM n (by omega) id hid
  obtain ⟨M, hNM, hM⟩ := hall _ fun _ h => h
  refine ⟨M, fun n hn => ⟨hN n (by omega), ?_⟩⟩
  intro id hid
  refine hM n hn id ?_
  have bl : ∀ k, N ≤ k → (begun ((σ.at enc f k).files rid).events) = List.range (due rid σ.log).length := by
    intro k hk
    have hI := at_inv (f := f) hi k
    have h1 := (hI.due rid).length_eq
    rw [hN k hk, hq k, List.append_nil] at h1
    have h2 := congrArg List.length (hI.lines rid)
    have h3 := (at_books (enc := enc) (f := f) hb k).begun
    have h4 := congrArg List.length h3
    rw [begun_planned] at h4
    simp only [List.length_map, List.length_range] at h2 h4
    rw [h3, h1, ← h2, h4]
  rw [bl n (by omega)] at hid
  rw [bl N (Nat.le_refl _)]
  exact hid

/-- The registry sends a request for the results on to the cell. -/
theorem asked_spawns {τ : State T} (h : (τ.registry.get rid).map RunState.readCell = some .readFromCell) :
    .read rid ∈ (τ.step enc (.call (.request rid .readCell))).handlers := by
  obtain ⟨s, hs, hr⟩ := Option.map_eq_some_iff.mp h
  have e : (τ.registry.step (.request rid .readCell)).events = τ.registry.events ++ [.read rid .readFromCell] := by
    simp only [Runs.step, Req.writes, Bool.false_and, Bool.false_eq_true, if_false, Runs.apply, hs, Runs.reqEff, Runs.exec, hr]
  simp only [State.step, State.call, e, List.drop_left, List.flatMap_cons, List.flatMap_nil, spawn, List.append_nil]
  exact List.mem_append_right _ (List.mem_singleton.mpr rfl)

/-- First come, first served. -/
theorem queue_fair {α : Type} {q : Nat → List α} {serve : Nat → Prop}
    (h1 : ∀ (n p : Nat) (t : α), ¬ serve n → (q n)[p]? = some t → (q (n + 1))[p]? = some t)
    (h2 : ∀ (n p : Nat) (t : α), serve n → (q n)[p + 1]? = some t → (q (n + 1))[p]? = some t)
    (h3 : ∀ n, ∃ m, n ≤ m ∧ serve m) (n p : Nat) (t : α) (ht : (q n)[p]? = some t) :
    ∃ m, n ≤ m ∧ serve m ∧ (q m)[0]? = some t := by
  induction p generalizing n with
  | zero =>
    obtain ⟨m, hm, hs⟩ := h3 n
    obtain ⟨d, rfl⟩ := Nat.exists_eq_add_of_le hm
    clear hm
    induction d generalizing n with
    | zero => exact ⟨n, Nat.le_refl _, hs, ht⟩
    | succ d ih =>
      by_cases hn : serve n
      · exact ⟨n, Nat.le_refl _, hn, ht⟩
      · obtain ⟨m, hm, r⟩ := ih (n + 1) (h1 n 0 t hn ht) (by rwa [show n + 1 + d = n + (d + 1) by omega])
        exact ⟨m, by omega, r⟩
  | succ p ihp =>
    obtain ⟨m, hm, hs⟩ := h3 n
    obtain ⟨d, rfl⟩ := Nat.exists_eq_add_of_le hm
    clear hm
    induction d generalizing n with
    | zero =>
      obtain ⟨m, hm, r⟩ := ihp (n + 1) (h2 n p t hs ht)
      exact ⟨m, by omega, r⟩
    | succ d ih =>
      by_cases hn : serve n
      · obtain ⟨m, hm, r⟩ := ihp (n + 1) (h2 n p t hn ht)
        exact ⟨m, by omega, r⟩
      · obtain ⟨m, hm, r⟩ := ih (n + 1) (h1 n (p + 1) t hn ht) (by rwa [show n + 1 + d = n + (d + 1) by omega])
        exact ⟨m, by omega, r⟩

theorem getElem?_more {α : Type} {l : List α} {p : Nat} {t : α} (h : l[p]? = some t) (new : List α) : (l ++ new)[p]? = some t := by
  have hp : p < l.length := by
    rcases Nat.lt_or_ge p l.length with hp | hp
    · exact hp
    · rw [List.getElem?_eq_none hp] at h; cases h
  rw [List.getElem?_append_left hp, h]

/-- Handlers stay in their places but when one of them goes on. -/
theorem handlers_keep {τ : State T} {a : Act T} (ha : ∀ i, a ≠ .handle i) : ∃ new, (τ.step enc a).handlers = τ.handlers ++ new := by
  cases a with
  | call a => exact ⟨_, rfl⟩
  | report r gs =>
    simp only [State.step]
    split
    · exact ⟨_, by simp only [State.call, List.append_assoc]; rfl⟩
    · exact ⟨_, rfl⟩
  | handle i => exact (ha i rfl).elim
  | task r i out => exact ⟨[], by simp [State.step, State.file]⟩
  | offload r c now accessed o => exact ⟨[], by simp [State.step, State.file]⟩

theorem handlers_first {τ : State T} : (τ.step enc (.handle 0)).handlers = τ.handlers.drop 1 := by
  simp only [State.step]
  cases hh : τ.handlers with
  | nil => simp [hh]
  | cons h hs => cases h <;> simp [State.handle, State.label, State.file]

theorem handlers_fair (h0 : ∀ n i, f n = .handle i → i = 0) (hgo : ∀ n, ∃ m, n ≤ m ∧ f m = .handle 0)
    {n : Nat} {h : Handler} (hh : h ∈ (σ.at enc f n).handlers) :
    ∃ m, n ≤ m ∧ ∃ i, f m = .handle i ∧ (σ.at enc f m).handlers[i]? = some h := by
  obtain ⟨p, hp⟩ := List.mem_iff_getElem?.mp hh
  obtain ⟨m, hm, hf, hr⟩ := queue_fair (q := fun n => (σ.at enc f n).handlers) (serve := fun n => f n = .handle 0)
    (by
      intro n p t hn ht
      obtain ⟨new, he⟩ := handlers_keep (enc := enc) (τ := σ.at enc f n) (a := f n) fun i hi => hn (by
        have := h0 n i hi; subst this; exact hi)
      simp only [at_succ, he]
      exact getElem?_more ht new)
    (by
      intro n p t hn ht
      simp only [at_succ, hn, handlers_first, List.getElem?_drop]
      rwa [Nat.add_comm])
    hgo n p h hp
  exact ⟨m, hm, 0, hf, hr⟩

/-- The tasks of a file stay in their places but when one of them goes on. -/
theorem tasks_keep {τ : State T} {a : Act T} (ha : ∀ i out, a ≠ .task rid i out) {p : Nat} {t : Results.Task}
    (h : (τ.files rid).tasks[p]? = some t) : ((τ.step enc a).files rid).tasks[p]? = some t := by
  have file : ∀ (υ : State T) (r : RunId) (b : Results.Act), υ.files = τ.files → (r = rid → ∀ i out, b ≠ .resume i out) →
      ((υ.file r b).files rid).tasks[p]? = some t := by
    intro υ r b he hb
    by_cases hr : rid = r
    · subst hr
      simp only [State.file, if_true, he]
      exact keeps_place (hb rfl) h
    · simp only [State.file, hr, if_false, he]; exact h
  cases a with
  | call a => exact h
  | report r gs => simp only [State.step]; split <;> exact h
  | handle i =>
    simp only [State.step]
    split
    · exact h
    · rename_i hd hi
      cases hd with
      | summary r n e => exact file _ r _ rfl fun _ i out => by simp
      | results r gs e => exact file _ r _ rfl fun _ i out => by simp
      | read r => exact file _ r _ rfl fun _ i out => by simp
  | task r i out =>
    refine file _ r _ rfl ?_
    intro hr
    subst hr
    exact (ha i out rfl).elim
  | offload r c now accessed o => exact file _ r _ rfl fun _ i out => by simp

theorem file_fair (h0 : ∀ n i out, f n = .task rid i out → i = 0) (hgo : ∀ n, ∃ m, n ≤ m ∧ ∃ out, f m = .task rid 0 out) :
    FileGoesOn enc σ f rid := by
  intro n j ⟨t, ht, hj⟩
  obtain ⟨p, hp⟩ := List.mem_iff_getElem?.mp ht
  obtain ⟨m, hm, ⟨out, hf⟩, hr⟩ := queue_fair (q := fun n => ((σ.at enc f n).files rid).tasks)
    (serve := fun n => ∃ out, f n = .task rid 0 out)
    (by
      intro n p t hn ht
      simp only [at_succ]
      refine tasks_keep (fun i out hi => hn ⟨out, ?_⟩) ht
      have := h0 n i out hi; subst this; exact hi)
    (by
      rintro n p t ⟨out, hn⟩ ht
      simp only [at_succ, hn]
      have := moves_up (out := out) ht
      simpa [State.step, State.file] using this)
    hgo n p t hp
  exact ⟨m, hm, 0, out, t, hf, hr, hj⟩

end
end Abq.Recording
