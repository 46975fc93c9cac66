import Verif.Spec.OpenFiles
import Verif.Spec.Results

/-! # How many results files a queue keeps open (C105) -/

namespace Abq.OpenFiles
open Abq.OpenFiles.Spec
open Abq.Names (Str)

/-- The steps on the results of one run. -/
def only (r : Str) (acts : List (Str × Results.Act)) : List Results.Act :=
  acts.filterMap (fun x => if r = x.1 then some x.2 else none)

theorem serve_only (w : Str → Results.Res) (acts : List (Str × Results.Act)) (r : Str) :
    serve w acts r = Results.run (w r) (only r acts) := by
  induction acts generalizing w with
  | nil => rfl
  | cons x acts ih =>
    unfold serve at ih ⊢
    rw [List.foldl_cons, ih]
    unfold only
    by_cases h : r = x.1
    · simp [h, Results.run]
    · simp [h]

/-- The descriptor of a run is only changed by its tasks and by an offload. -/
theorem fd_stays (σ : Results.Res) (a : Results.Act) (h : σ.fd = some .opened) (hn : NotOffload a) :
    (Results.step σ a).fd = some .opened := by
  cases a with
  | results line e => exact h
  | summary line e => exact h
  | request => simp only [Results.step]; split <;> exact h
  | offload c now acc o => exact hn.elim
  | resume i out =>
    simp only [Results.step]
    split
    · exact h
    · rename_i t _
      cases t with
      | ack id line e => simp only [Results.stepTask]; split <;> exact h
      | op o e st =>
        cases st <;> simp [Results.stepTask, Results.fastPath, Results.slowPath, h, Results.Res.add]
      | finish id e => exact h

/-- Without any step but those of offload jobs nothing is opened. -/
theorem idle_stays (σ : Results.Res) (as : List Results.Act) (h : σ.fd = none) (ht : σ.tasks = [])
    (hn : ∀ a ∈ as, ¬ (match a with | .results .. => True | .summary .. => True | .request => True | _ => False)) :
    (Results.run σ as).fd = none ∧ (Results.run σ as).tasks = [] := by
  induction as generalizing σ with
  | nil => exact ⟨h, ht⟩
  | cons a as ih =>
    have hn' := fun x hx => hn x (List.mem_cons_of_mem _ hx)
    have ha := hn a (by simp)
    cases a with
    | results line e => exact absurd trivial ha
    | summary line e => exact absurd trivial ha
    | request => exact absurd trivial ha
    | resume i out =>
      refine ih (Results.step σ (.resume i out)) ?_ ?_ hn' <;> simp [Results.step, ht, h]
    | offload c now acc o =>
      refine ih (Results.step σ (.offload c now acc o)) ?_ ?_ hn' <;>
        simp [Results.step, Results.offload, h, Results.Res.add, ht]

end Abq.OpenFiles

namespace Abq.Props
open Abq.OpenFiles Abq.OpenFiles.Spec
open Abq.Names (Str)

/-- C105: the queue has no results file open but those of runs for which results were reported, or a summary
recorded, or results asked for since it was started. -/
theorem C105_only_used_files_partial (w : Str → Results.Res) (hw : Fresh w) (acts : List (Str × Results.Act)) (r : Str)
    (h : Open (serve w acts) r) :
    (∃ line e, (r, .results line e) ∈ acts) ∨ (∃ line e, (r, .summary line e) ∈ acts) ∨
      (r, .request) ∈ acts := by
  apply Classical.byContradiction
  intro hno
  simp only [not_or, not_exists] at hno
  obtain ⟨h1, h2, h3⟩ := hno
  obtain ⟨noop, disk, remote, hr⟩ := hw r
  have := (idle_stays (w r) (only r acts) (by rw [hr]; rfl) (by rw [hr]; rfl) (by
    intro a ha
    obtain ⟨x, hx, hxa⟩ := List.mem_filterMap.mp ha
    split at hxa
    · rename_i heq
      injection hxa with hxa
      obtain ⟨x1, x2⟩ := x
      dsimp only at heq hxa
      subst heq; subst hxa
      cases x2 with
      | results line e => exact absurd hx (h1 line e)
      | summary line e => exact absurd hx (h2 line e)
      | request => exact absurd hx h3
      | resume i out => simp
      | offload c now acc o => simp
    · simp at hxa)).1
  unfold Open at h
  rw [serve_only, this] at h
  exact absurd h (by simp)

/-- C105: a file that is open stays open, however many other runs the queue serves, unless an offload job comes to
it. -/
theorem C105_stays_open (w : Str → Results.Res) (acts : List (Str × Results.Act)) (r : Str) (h : Open w r)
    (hn : ∀ a, (r, a) ∈ acts → NotOffload a) : Open (serve w acts) r := by
  unfold Open at *
  rw [serve_only]
  have hn' : ∀ a ∈ only r acts, NotOffload a := by
    intro a ha
    obtain ⟨x, hx, hxa⟩ := List.mem_filterMap.mp ha
    split at hxa
    · rename_i heq
      injection hxa with hxa
      subst hxa
      exact hn x.2 (by rw [heq]; exact hx)
    · simp at hxa
  generalize w r = σ at h
  generalize only r acts = as at hn'
  induction as generalizing σ with
  | nil => exact h
  | cons a as ih =>
    exact ih (Results.step σ a) (fd_stays σ a h (hn' a (by simp))) (fun x hx => hn' x (by simp [hx]))

/-- Recording one line of results of a run, from the report to the end. -/
def recordOne : List Results.Act :=
  [.results [1] false, .resume 0 {}, .resume 0 {}, .resume 0 {}, .resume 0 {}, .resume 0 {}]

theorem recordOne_opens (noop : Bool) :
    (Results.run (Results.init noop [] none) recordOne).fd = some .opened ∧
    (Results.run (Results.init noop [] none) recordOne).tasks = [] ∧
    (Results.run (Results.init noop [] none) recordOne).disk = [1, 10] := by
  cases noop <;> decide

/-- C105 in full: the queue has never more than 25 results files open, the number given as the most there are to be
(`instance.rs:38-40`). -/
def AtMost25 : Prop :=
  ∀ (w : Str → Results.Res), Fresh w → ∀ (acts : List (Str × Results.Act)) (rs : List Str), rs.Nodup →
    (∀ r ∈ rs, Open (serve w acts) r) → rs.length ≤ 25

/-- C105: for every number there is a history after which so many files are open, with nothing left to be done for
any run: nothing bounds their number. -/
theorem C105_any_number_open (n : Nat) :
    ∃ (w : Str → Results.Res) (acts : List (Str × Results.Act)) (rs : List Str), Fresh w ∧ rs.Nodup ∧
      rs.length = n ∧ ∀ r ∈ rs, Open (serve w acts) r ∧ (serve w acts r).tasks = [] := by
  let rs : List Str := (List.range n).map (fun i => List.replicate i 'a')
  have hnd : rs.Nodup := by
    have hinj : ∀ (l : List Nat), l.Nodup → (l.map (fun i => List.replicate i 'a')).Nodup := by
      intro l hl
      induction l with
      | nil => simp
      | cons x l ih =>
        simp only [List.map_cons, List.nodup_cons, List.mem_map, not_exists, not_and] at hl ⊢
        refine ⟨?_, ih hl.2⟩
        intro y hy heq
        have : y = x := by simpa using congrArg List.length heq
        exact hl.1 (this ▸ hy)
    exact hinj _ List.nodup_range
  refine ⟨fun _ => Results.init false [] none, rs.flatMap (fun r => recordOne.map (fun a => (r, a))), rs,
    fun _ => ⟨false, [], none, rfl⟩, hnd, by simp [rs], ?_⟩
  intro r hr
  have honly : only r (rs.flatMap (fun r => recordOne.map (fun a => (r, a)))) = recordOne := by
    clear_value rs
    have hmap : ∀ r', only r (recordOne.map (fun a => (r', a))) = if r = r' then recordOne else [] := by
      intro r'
      by_cases h : r = r'
      · subst h; simp [only, List.filterMap_map, Function.comp_def]
      · simp [only, h, List.filterMap_map, Function.comp_def]
    have happ : ∀ a b, only r (a ++ b) = only r a ++ only r b := by intro a b; simp [only]
    have hnot : ∀ l : List Str, r ∉ l → only r (l.flatMap (fun r => recordOne.map (fun a => (r, a)))) = [] := by
      intro l
      induction l with
      | nil => intro _; rfl
      | cons x l ih =>
        intro h
        simp only [List.mem_cons, not_or] at h
        rw [List.flatMap_cons, happ, hmap, if_neg h.1, ih h.2]
        rfl
    clear hmap
    induction rs with
    | nil => simp at hr
    | cons x l ih =>
      simp only [List.nodup_cons] at hnd
      have hmap : ∀ r', only r (recordOne.map (fun a => (r', a))) = if r = r' then recordOne else [] := by
        intro r'
        by_cases h : r = r'
        · subst h; simp [only, List.filterMap_map, Function.comp_def]
        · simp [only, h, List.filterMap_map, Function.comp_def]
      rw [List.flatMap_cons, happ, hmap]
      by_cases h : r = x
      · subst h
        rw [if_pos rfl, hnot l hnd.1, List.append_nil]
      · rw [if_neg h, ih hnd.2 (by simpa [h] using hr)]
        rfl
  have hop := recordOne_opens false
  unfold Open
  rw [serve_only, honly]
  exact ⟨hop.1, hop.2.1⟩

theorem C105_full_statement_fails : ¬ AtMost25 := by
  intro h
  obtain ⟨w, acts, rs, hw, hnd, hlen, hopen⟩ := C105_any_number_open 26
  have := h w hw acts rs hnd (fun r hr => (hopen r hr).1)
  omega

end Abq.Props
