import Verif.Spec.Report
import Verif.Proof.Summary
/-! Lemmas about reports. -/

namespace Abq.Report
open Summary (Tracker TestsOf)

/-! ## The order -/

theorem cmp_time (a b : Group) :
    (cmpOption (a.results.head?.map (·.timestamp)) (b.results.head?.map (·.timestamp)) = .lt
      ↔ (a.notLater b ∧ ¬ a.sameTime b)) ∧
    (cmpOption (a.results.head?.map (·.timestamp)) (b.results.head?.map (·.timestamp)) = .eq ↔ a.sameTime b) := by
  unfold Group.notLater Group.sameTime
  cases a.results.head? <;> cases b.results.head?
  · simp [cmpOption]
  · simp [cmpOption]
  · simp [cmpOption]
  · simp only [Option.map_some, cmpOption, Nat.compare_eq_lt, Nat.compare_eq_eq, Option.some.injEq, and_true]
    constructor <;> omega

theorem cmp_eq_lt (a b : Group) : cmp a b = .lt ↔
    a.workId < b.workId ∨ (a.workId = b.workId ∧
      ((a.notLater b ∧ ¬ a.sameTime b) ∨ (a.sameTime b ∧ a.runNumber < b.runNumber))) := by
  obtain ⟨h1, h2⟩ := cmp_time a b
  unfold cmp cmpKey Group.key
  simp only [Ordering.then_eq_lt, Nat.compare_eq_lt, Nat.compare_eq_eq, h1, h2]

theorem cmp_eq_eq (a b : Group) : cmp a b = .eq ↔ a.sameKey b := by
  obtain ⟨h1, h2⟩ := cmp_time a b
  unfold cmp cmpKey Group.key Group.sameKey
  simp only [Ordering.then_eq_eq, Nat.compare_eq_eq, h2]

theorem cmp_ne_gt (a b : Group) : cmp a b ≠ .gt ↔ a.precedes b := by
  have h : cmp a b ≠ .gt ↔ (cmp a b = .lt ∨ cmp a b = .eq) := by cases cmp a b <;> simp
  rw [h, cmp_eq_lt, cmp_eq_eq]
  unfold Group.precedes Group.sameKey
  constructor
  · rintro ((h | ⟨h1, h2 | ⟨h2, h3⟩⟩) | ⟨h1, h2, h3⟩)
    · exact .inl h
    · exact .inr ⟨h1, .inl h2⟩
    · exact .inr ⟨h1, .inr ⟨h2, by omega⟩⟩
    · exact .inr ⟨h1, .inr ⟨h2, by omega⟩⟩
  · rintro (h | ⟨h1, h2 | ⟨h2, h3⟩⟩)
    · exact .inl (.inl h)
    · exact .inl (.inr ⟨h1, .inl h2⟩)
    · by_cases h4 : a.runNumber = b.runNumber
      · exact .inr ⟨h1, h2, h4⟩
      · exact .inl (.inr ⟨h1, .inr ⟨h2, by omega⟩⟩)

theorem notLater_total (a b : Group) : a.notLater b ∨ b.notLater a := by
  unfold Group.notLater
  cases a.results.head? <;> cases b.results.head? <;> simp
  omega

theorem notLater_trans {a b c : Group} (h : a.notLater b) (h' : b.notLater c) : a.notLater c := by
  unfold Group.notLater at *
  revert h h'
  cases a.results.head? <;> cases b.results.head? <;> cases c.results.head? <;> simp
  omega

theorem notLater_antisymm {a b : Group} (h : a.notLater b) (h' : b.notLater a) : a.sameTime b := by
  unfold Group.notLater Group.sameTime at *
  revert h h'
  cases a.results.head? <;> cases b.results.head? <;> simp
  omega

theorem sameTime_notLater {a b : Group} (h : a.sameTime b) : a.notLater b := by
  unfold Group.notLater Group.sameTime at *
  revert h
  cases a.results.head? <;> cases b.results.head? <;> simp
  omega

theorem precedes_total (a b : Group) : a.precedes b ∨ b.precedes a := by
  rcases Nat.lt_trichotomy a.workId b.workId with h | h | h
  · exact .inl (.inl h)
  · by_cases hs : a.sameTime b
    · rcases Nat.le_total a.runNumber b.runNumber with hr | hr
      · exact .inl (.inr ⟨h, .inr ⟨hs, hr⟩⟩)
      · exact .inr (.inr ⟨h.symm, .inr ⟨Eq.symm hs, hr⟩⟩)
    · rcases notLater_total a b with hl | hl
      · exact .inl (.inr ⟨h, .inl ⟨hl, hs⟩⟩)
      · exact .inr (.inr ⟨h.symm, .inl ⟨hl, fun e => hs (Eq.symm e)⟩⟩)
  · exact .inr (.inl h)

theorem precedes_trans {a b c : Group} (h : a.precedes b) (h' : b.precedes c) : a.precedes c := by
  unfold Group.precedes at *
  rcases h with h | ⟨h1, h2⟩
  · rcases h' with h' | ⟨h1', _⟩ <;> exact .inl (by omega)
  · rcases h' with h' | ⟨h1', h2'⟩
    · exact .inl (by omega)
    · refine .inr ⟨h1.trans h1', ?_⟩
      rcases h2 with ⟨hl, hs⟩ | ⟨hs, hr⟩
      · rcases h2' with ⟨hl', hs'⟩ | ⟨hs', hr'⟩
        · refine .inl ⟨notLater_trans hl hl', fun e => hs ?_⟩
          exact notLater_antisymm hl (notLater_trans hl' (sameTime_notLater (Eq.symm e)))
        · exact .inl ⟨notLater_trans hl (sameTime_notLater hs'), fun e => hs (e.trans (Eq.symm hs'))⟩
      · rcases h2' with ⟨hl', hs'⟩ | ⟨hs', hr'⟩
        · exact .inl ⟨notLater_trans (sameTime_notLater hs) hl', fun e => hs' ((Eq.symm hs).trans e)⟩
        · exact .inr ⟨hs.trans hs', by omega⟩

theorem precedes_antisymm {a b : Group} (h : a.precedes b) (h' : b.precedes a) : a.sameKey b := by
  unfold Group.precedes Group.sameKey at *
  rcases h with h | ⟨h1, h2⟩
  · rcases h' with h' | ⟨h1', _⟩ <;> omega
  · rcases h' with h' | ⟨h1', h2'⟩
    · omega
    · rcases h2 with ⟨hl, hs⟩ | ⟨hs, hr⟩
      · rcases h2' with ⟨hl', _⟩ | ⟨hs', _⟩
        · exact absurd (notLater_antisymm hl hl') hs
        · exact absurd (Eq.symm hs') hs
      · rcases h2' with ⟨_, hs'⟩ | ⟨_, hr'⟩
        · exact absurd (Eq.symm hs) hs'
        · exact ⟨h1, hs, by omega⟩

/-- Sorting by `cmp` with a merge sort meets the contract. -/
theorem isSort_mergeSort : IsSort fun l => l.mergeSort fun a b => decide (cmp a b ≠ .gt) := by
  refine ⟨fun l => List.mergeSort_perm l _, fun l => ?_⟩
  have := List.pairwise_mergeSort (le := fun a b => decide (cmp a b ≠ .gt))
    (by intro a b c hab hbc
        simp only [decide_eq_true_eq, cmp_ne_gt] at *
        exact precedes_trans hab hbc)
    (by intro a b
        simp only [Bool.or_eq_true, decide_eq_true_eq, cmp_ne_gt]
        exact precedes_total a b) l
  simpa only [decide_eq_true_eq] using this

theorem sorted_unique {m m' : List Group} (h : m.Pairwise Group.precedes) (h' : m'.Pairwise Group.precedes)
    (hp : m.Perm m') (hd : m.Pairwise fun a b => ¬ a.sameKey b) : m = m' := by
  apply List.Perm.eq_of_pairwise (le := Group.precedes) _ h h' hp
  intro a b ha hb hab hba
  have hb' : b ∈ m := hp.mem_iff.2 hb
  refine Classical.byContradiction fun hne => ?_
  have key := List.Pairwise.forall_of_forall_of_flip (R := fun a b => a = b ∨ ¬ a.sameKey b) (fun x _ => .inl rfl)
      (hd.imp .inr) (hd.imp fun {x y} h => .inr fun e => h ⟨e.1.symm, Eq.symm e.2.1, e.2.2.symm⟩) ha hb'
  exact key.elim hne (fun h => h (precedes_antisymm hab hba))

theorem IsSort.unique {sort : List Group → List Group} (hs : IsSort sort) {l m : List Group}
    (hm : m.Pairwise Group.precedes) (hp : m.Perm l) (hd : m.Pairwise fun a b => ¬ a.sameKey b) : sort l = m :=
  (sorted_unique hm ((hs.ascending l).imp (fun h => (cmp_ne_gt _ _).1 h)) (hp.trans (hs.perm l).symm) hd).symm

/-! ## Collecting -/

theorem collect_foldl (lines : List Line) (acc : List Group × Option Nat) :
    lines.foldl collectLine acc = (acc.1 ++ received lines, (summaries lines).getLast?.or acc.2) := by
  induction lines generalizing acc with
  | nil => simp [received, summaries]
  | cons line lines ih =>
    rw [List.foldl_cons, ih]
    cases line with
    | results gs => simp [received, summaries, extendHeap, collectLine]
    | summary n =>
      simp only [collectLine, received, summaries, List.flatMap_cons, List.nil_append, List.filterMap_cons, List.getLast?_cons]
      cases (List.filterMap _ lines).getLast? <;> rfl

theorem collect_eq (lines : List Line) : collect lines = (received lines, (summaries lines).getLast?) := by
  unfold collect
  rw [collect_foldl]
  simp

/-! ## Telling reporters -/

def Reporter.gotAll (r : Reporter) (es : List Event) : Reporter := { r with log := r.log ++ es }

theorem tell_ok (e : Event) (rs : List Reporter) (h : (tell e rs).2 = true) : (tell e rs).1 = rs.map (·.got e) := by
  induction rs with
  | nil => rfl
  | cons r rs ih =>
    unfold tell at h ⊢
    split at h
    · simp at h
    · rename_i hr
      rw [if_neg hr]
      simp only [List.map_cons]
      rw [ih h]

theorem tell_fine (e : Event) (rs : List Reporter) (h : ∀ r ∈ rs, r.Fine) : (tell e rs).2 = true := by
  induction rs with
  | nil => rfl
  | cons r rs ih =>
    unfold tell
    rw [h r List.mem_cons_self]
    simpa using ih (fun r' h' => h r' (List.mem_cons_of_mem _ h'))

theorem tell_refuses (e : Event) (rs : List Reporter) (f : Reporter → Prop) (hf : ∀ r, f r → f (r.got e))
    (h : ∀ r ∈ rs, f r) : ∀ r ∈ (tell e rs).1, f r := by
  induction rs with
  | nil => simp [tell]
  | cons r rs ih =>
    unfold tell
    have hr := h r List.mem_cons_self
    have hrs := fun r' h' => h r' (List.mem_cons_of_mem _ h')
    split
    · intro x hx
      rcases List.mem_cons.1 hx with rfl | hx
      · exact hf r hr
      · exact hrs x hx
    · intro x hx
      rcases List.mem_cons.1 hx with rfl | hx
      · exact hf r hr
      · exact ih hrs x hx

/-! ## Handling a group -/

def loopReported (before after : Option String) : List TestResult → List Reported
  | [] => []
  | [t] => [⟨before, t, after⟩]
  | t :: t' :: rest => ⟨before, t, none⟩ :: loopReported none after (t' :: rest)

theorem loopReported_none (after : Option String) (t : TestResult) (rest : List TestResult) :
    loopReported none after (t :: rest) =
      ((t :: rest).dropLast.map fun t => ⟨none, t, none⟩) ++ ((t :: rest).getLast?.toList.map fun t => ⟨none, t, after⟩) := by
  induction rest generalizing t with
  | nil => rfl
  | cons t' rest ih =>
    rw [loopReported, ih]
    simp [List.dropLast_cons_of_ne_nil]

theorem loopReported_eq (g : Group) : loopReported (some g.before) g.after g.results = g.reported := by
  unfold Group.reported
  cases g.results with
  | nil => rfl
  | cons t rest =>
    cases rest with
    | nil => rfl
    | cons t' rest =>
      rw [loopReported, loopReported_none]; rfl

theorem got_gotAll (e : Event) (es : List Event) (rs : List Reporter) :
    (rs.map (·.got e)).map (·.gotAll es) = rs.map (·.gotAll (e :: es)) := by
  simp [Reporter.got, Reporter.gotAll]

theorem gotAll_gotAll (es es' : List Event) (rs : List Reporter) :
    (rs.map (·.gotAll es)).map (·.gotAll es') = rs.map (·.gotAll (es ++ es')) := by
  simp [Reporter.gotAll]

theorem gotAll_nil (rs : List Reporter) : rs.map (·.gotAll []) = rs := by
  simp [Reporter.gotAll]

theorem handleLoop_cons (g : Group) (before after : Option String) (s : St) (t : TestResult) (rest : List TestResult) :
    ∃ e, e = Event.push g.runNumber ⟨before, t, if rest.isEmpty then after else none⟩ ∧
    handleLoop g before after s (t :: rest) =
      if (tell e s.reporters).2 then
        handleLoop g none (if rest.isEmpty then none else after)
          { s with tracker := s.tracker.account (toResult g t), reporters := (tell e s.reporters).1,
                   tracked := s.tracked ++ [(g.runNumber, t)] } rest
      else ({ s with tracker := s.tracker.account (toResult g t), reporters := (tell e s.reporters).1 }, false) :=
  ⟨_, rfl, rfl⟩

def loopResult (g : Group) (before after : Option String) (s : St) (ts : List TestResult) : St :=
  { seen := s.seen
    tracker := (ts.map (toResult g)).foldl Tracker.account s.tracker
    tracked := s.tracked ++ ts.map (g.runNumber, ·)
    reporters := s.reporters.map (·.gotAll ((loopReported before after ts).map (.push g.runNumber ·))) }

theorem handleLoop_ok (g : Group) (before after : Option String) (s : St) (ts : List TestResult)
    (h : (handleLoop g before after s ts).2 = true) :
    (handleLoop g before after s ts).1 = loopResult g before after s ts := by
  induction ts generalizing before after s with
  | nil =>
    simp [handleLoop, loopResult, loopReported, gotAll_nil]
  | cons t rest ih =>
    obtain ⟨e, he, heq⟩ := handleLoop_cons g before after s t rest
    rw [heq] at h ⊢
    split at h
    · rename_i hok
      rw [if_pos hok, ih _ _ _ h, tell_ok _ _ hok, he]
      unfold loopResult
      dsimp only
      cases rest with
      | nil =>
        simp [loopReported, Reporter.gotAll, Reporter.got]
      | cons t' rest =>
        simp only [List.isEmpty_cons, Bool.false_eq_true, if_false]
        rw [got_gotAll]
        simp [loopReported]
    · simp at h

theorem handleLoop_fine (g : Group) (before after : Option String) (s : St) (ts : List TestResult)
    (h : ∀ r ∈ s.reporters, r.Fine) :
    (handleLoop g before after s ts).2 = true := by
  induction ts generalizing before after s with
  | nil => rfl
  | cons t rest ih =>
    obtain ⟨e, he, heq⟩ := handleLoop_cons g before after s t rest
    rw [heq, if_pos (tell_fine e s.reporters h)]
    apply ih
    exact tell_refuses _ _ Reporter.Fine (fun r hr => hr) h

theorem handleLoop_keeps (g : Group) (f : Reporter → Prop) (hf : ∀ n p r, f r → f (r.got (.push n p)))
    (before after : Option String) (s : St) (ts : List TestResult) (h : ∀ r ∈ s.reporters, f r) :
    ∀ r ∈ (handleLoop g before after s ts).1.reporters, f r := by
  induction ts generalizing before after s with
  | nil => exact h
  | cons t rest ih =>
    obtain ⟨e, he, heq⟩ := handleLoop_cons g before after s t rest
    have ht : ∀ r ∈ (tell e s.reporters).1, f r := tell_refuses _ _ f (by rw [he]; exact hf _ _) h
    rw [heq]
    split
    · exact ih _ _ _ ht
    · exact ht

def addSeen (seen : List Nat) (w : Nat) : List Nat := if seen.contains w then seen else seen ++ [w]

def handleResult (s : St) (g : Group) : St :=
  { seen := addSeen s.seen g.workId
    tracker := (g.results.map (toResult g)).foldl Tracker.account s.tracker
    tracked := s.tracked ++ g.results.map (g.runNumber, ·)
    reporters := s.reporters.map (·.gotAll (g.reported.map (.push g.runNumber ·))) }

theorem handle_ok (s : St) (g : Group) (h : (handle s g).2 = true) : (handle s g).1 = handleResult s g := by
  unfold handle at h ⊢
  rw [handleLoop_ok _ _ _ _ _ h]
  unfold loopResult handleResult
  rw [loopReported_eq]
  rfl

theorem handleAll_ok (s : St) (gs : List Group) (h : (handleAll s gs).2 = true) :
    (handleAll s gs).1 =
      { seen := gs.foldl (fun seen g => addSeen seen g.workId) s.seen
        tracker := (history gs).foldl Tracker.account s.tracker
        tracked := s.tracked ++ gs.flatMap fun g => g.results.map (g.runNumber, ·)
        reporters := s.reporters.map (·.gotAll (pushes gs)) } := by
  induction gs generalizing s with
  | nil => simp [handleAll, history, pushes, gotAll_nil]
  | cons g gs ih =>
    unfold handleAll at h ⊢
    dsimp only at h ⊢
    split at h
    · rename_i hok
      rw [if_pos hok, ih _ h, handle_ok _ _ hok]
      unfold handleResult
      simp [history, pushes, Reporter.gotAll, List.foldl_append]
    · simp at h

theorem handleAll_fine (s : St) (gs : List Group) (h : ∀ r ∈ s.reporters, r.Fine) : (handleAll s gs).2 = true := by
  induction gs generalizing s with
  | nil => rfl
  | cons g gs ih =>
    unfold handleAll
    dsimp only
    have hok : (handle s g).2 = true := handleLoop_fine _ _ _ _ _ h
    rw [if_pos hok]
    apply ih
    exact handleLoop_keeps g Reporter.Fine (fun _ _ _ hr => hr) _ _ _ _ h

theorem handleAll_keeps (f : Reporter → Prop) (hf : ∀ n p r, f r → f (r.got (.push n p)))
    (s : St) (gs : List Group) (h : ∀ r ∈ s.reporters, f r) : ∀ r ∈ (handleAll s gs).1.reporters, f r := by
  induction gs generalizing s with
  | nil => exact h
  | cons g gs ih =>
    have hk : ∀ r ∈ (handle s g).1.reporters, f r := handleLoop_keeps g f hf _ _ _ _ h
    unfold handleAll
    dsimp only
    split
    · exact ih _ hk
    · exact hk

/-! ## Seen work ids -/

theorem addSeen_spec (seen : List Nat) (w : Nat) (hn : seen.Nodup) :
    (addSeen seen w).Nodup ∧ ∀ x, x ∈ addSeen seen w ↔ x ∈ seen ∨ x = w := by
  unfold addSeen
  by_cases h : seen.contains w = true
  · rw [if_pos h]
    rw [List.contains_iff_mem] at h
    refine ⟨hn, fun x => ⟨.inl, ?_⟩⟩
    rintro (hx | rfl)
    · exact hx
    · exact h
  · rw [if_neg h]
    rw [List.contains_iff_mem] at h
    refine ⟨?_, fun x => by simp⟩
    rw [List.nodup_append]
    refine ⟨hn, by simp, ?_⟩
    intro a ha b hb e
    rw [List.mem_singleton] at hb
    exact h (by rw [← hb, ← e]; exact ha)

theorem seen_spec (gs : List Group) (seen : List Nat) (hn : seen.Nodup) :
    (gs.foldl (fun seen g => addSeen seen g.workId) seen).Nodup ∧
    ∀ x, x ∈ gs.foldl (fun seen g => addSeen seen g.workId) seen ↔ x ∈ seen ∨ ∃ g ∈ gs, g.workId = x := by
  induction gs generalizing seen with
  | nil => exact ⟨hn, by simp⟩
  | cons g gs ih =>
    obtain ⟨h1, h2⟩ := addSeen_spec seen g.workId hn
    obtain ⟨h3, h4⟩ := ih _ h1
    refine ⟨h3, fun x => ?_⟩
    rw [List.foldl_cons, h4, h2]
    simp only [List.mem_cons, exists_eq_or_imp, or_assoc]
    constructor
    · rintro (h | h | h)
      · exact .inl h
      · exact .inr (.inl h.symm)
      · exact .inr (.inr h)
    · rintro (h | h | h)
      · exact .inl h
      · exact .inr (.inl h.symm)
      · exact .inr (.inr h)

theorem length_eq_of_same {l l' : List Nat} (hn : l.Nodup) (hn' : l'.Nodup) (h : ∀ x, x ∈ l ↔ x ∈ l') :
    l.length = l'.length := ((List.perm_ext_iff_of_nodup hn hn').2 h).length_eq

/-! ## The whole -/

/-- The outcome, once all results are handled. -/
theorem process_eq (sort : List Group → List Group) (rs : List Reporter) (lines : List Line) :
    process sort rs lines =
      if (handleAll ⟨[], .new, [], rs⟩ (sort (received lines))).2 = true then
        let gs := sort (received lines)
        let rs' := rs.map (·.gotAll (pushes gs ++ [.afterAll]))
        let tracked := gs.flatMap fun g => g.results.map (g.runNumber, ·)
        let seen := gs.foldl (fun seen g => addSeen seen g.workId) []
        match (summaries lines).getLast? with
        | none => ⟨rs', tracked, .error .noSummary⟩
        | some n =>
          if n ≠ seen.length then ⟨rs', tracked, .error (.incomplete n seen.length)⟩
          else if (tell .finish rs').2 = true then
            ⟨rs.map (·.gotAll (pushes gs ++ [.afterAll, .finish])), tracked, .ok (Summary.summarise (history gs)).exitCode⟩
          else ⟨(tell .finish rs').1, tracked, .error .reporter⟩
      else
        ⟨(handleAll ⟨[], .new, [], rs⟩ (sort (received lines))).1.reporters,
         (handleAll ⟨[], .new, [], rs⟩ (sort (received lines))).1.tracked, .error .reporter⟩ := by
  unfold process
  rw [collect_eq]
  dsimp only
  by_cases hok : (handleAll ⟨[], .new, [], rs⟩ (sort (received lines))).2 = true
  · rw [if_pos hok, hok]
    simp only [Bool.not_true, Bool.false_eq_true, if_false]
    rw [handleAll_ok _ _ hok]
    dsimp only
    have hrs : (rs.map (·.gotAll (pushes (sort (received lines))))).map (·.got .afterAll)
        = rs.map (·.gotAll (pushes (sort (received lines)) ++ [.afterAll])) := by
      simp [Reporter.got, Reporter.gotAll]
    rw [hrs]
    cases (summaries lines).getLast? with
    | none => simp
    | some n =>
      simp only [List.nil_append]
      split
      · rfl
      · by_cases hf : (tell .finish (rs.map (·.gotAll (pushes (sort (received lines)) ++ [.afterAll])))).2 = true
        · rw [if_pos hf, hf, tell_ok _ _ hf]
          simp [Reporter.got, Reporter.gotAll, Summary.summarise]
        · rw [if_neg hf]
          have : (tell .finish (rs.map (·.gotAll (pushes (sort (received lines)) ++ [.afterAll])))).2 = false := by
            simpa using hf
          rw [this]; rfl
  · rw [if_neg hok]
    have : (handleAll ⟨[], .new, [], rs⟩ (sort (received lines))).2 = false := by simpa using hok
    rw [this]; rfl

/-! ## Attempts of one run -/

theorem resultsOf_history (gs : List Group) (id : String) :
    Summary.resultsOf (history gs) id =
      gs.flatMap fun g =>
        (g.results.filter fun t => t.id == id && decide (t.status ≠ .nativeRunnerError)).map (toResult g) := by
  unfold Summary.resultsOf history
  rw [List.filter_flatMap]
  congr 1
  funext g
  rw [List.filter_map]
  congr 1
  apply List.filter_congr
  intro t _
  show ((decide (t.status ≠ .nativeRunnerError)) && t.id == id) = _
  exact Bool.and_comm _ _

theorem OneRun.perm {gs gs' : List Group} (h : OneRun gs) (hp : gs'.Perm gs) : OneRun gs' where
  attempt g hg := h.attempt g (hp.mem_iff.1 hg)
  one := (hp.pairwise_iff (fun {a b} hab hba => hab ⟨hba.1.symm, hba.2.symm⟩)).2 h.one
  clock g hg g' hg' := h.clock g (hp.mem_iff.1 hg) g' (hp.mem_iff.1 hg')
  owner g hg g' hg' := h.owner g (hp.mem_iff.1 hg) g' (hp.mem_iff.1 hg')
  once g hg := h.once g (hp.mem_iff.1 hg)

theorem SingleRun.perm {gs gs' : List Group} (h : SingleRun gs) (hp : gs'.Perm gs) : SingleRun gs' where
  toOneRun := h.toOneRun.perm hp
  first g hg id hh :=
    let ⟨g', hg', x⟩ := h.first g (hp.mem_iff.1 hg) id hh
    ⟨g', hp.mem_iff.2 hg', x⟩

/-- Which results there are of a test. -/
theorem mem_resultsOf_history {gs : List Group} {id : String} {r : Summary.Result} :
    r ∈ Summary.resultsOf (history gs) id ↔
      ∃ g ∈ gs, ∃ t ∈ g.results, (t.id = id ∧ t.status ≠ .nativeRunnerError) ∧ toResult g t = r := by
  rw [resultsOf_history]
  simp only [List.mem_flatMap, List.mem_map, List.mem_filter, Bool.and_eq_true, beq_iff_eq, decide_eq_true_eq, and_assoc]

/-- The results of a test are in the order of the attempts. -/
theorem attempts_ascend {gs : List Group} (h : OneRun gs) (hs : gs.Pairwise Group.precedes) (id : String) :
    (Summary.resultsOf (history gs) id).Pairwise fun a b => a.runNumber < b.runNumber := by
  rw [resultsOf_history, List.pairwise_flatMap]
  have hhas : ∀ (g : Group), ∀ x ∈ (g.results.filter fun t => t.id == id && decide (t.status ≠ .nativeRunnerError)).map (toResult g),
      g.has id ∧ x.runNumber = g.runNumber := by
    intro g x hx
    obtain ⟨t, ht, rfl⟩ := List.mem_map.1 hx
    rw [List.mem_filter] at ht
    simp only [Bool.and_eq_true, beq_iff_eq, decide_eq_true_eq] at ht
    exact ⟨⟨t, ht.1, ht.2⟩, rfl⟩
  constructor
  · intro g hg
    have h1 := h.once g hg id
    generalize (g.results.filter fun t => t.id == id && decide (t.status ≠ .nativeRunnerError)) = l at h1
    match l, h1 with
    | [], _ => simp
    | [_], _ => simp
  · have h2 := (List.pairwise_and_iff.2 ⟨hs, h.one⟩)
    refine List.Pairwise.imp_of_mem ?_ h2
    intro g g' hg hg' ⟨hp, ho⟩ x hx y hy
    obtain ⟨hgi, hxr⟩ := hhas g x hx
    obtain ⟨hgi', hyr⟩ := hhas g' y hy
    have hw := h.owner g hg g' hg' id hgi hgi'
    rw [hxr, hyr]
    have hne : g.runNumber ≠ g'.runNumber := fun e => ho ⟨hw, e⟩
    rcases Nat.lt_or_gt_of_ne hne with hlt | hgt
    · exact hlt
    · have hc := h.clock g' hg' g hg ⟨id, hgi'⟩ ⟨id, hgi⟩ hw.symm hgt
      rcases hp with hp | ⟨_, hp | hp⟩
      · omega
      · exact absurd (notLater_antisymm hp.1 hc) hp.2
      · omega

theorem numbered {gs : List Group} (h : SingleRun gs) (hs : gs.Pairwise Group.precedes) :
    Summary.NumberedAttempts (history gs) := by
  intro id r rest he
  have hpw := attempts_ascend h.toOneRun hs id
  rw [he, List.pairwise_cons] at hpw
  obtain ⟨g, hg, u, hu, hui, rfl⟩ := mem_resultsOf_history.1 (he ▸ List.mem_cons_self : r ∈ Summary.resultsOf (history gs) id)
  obtain ⟨g1, hg1, hw1, hr1, t, ht, ht12⟩ := h.first g hg id ⟨u, hu, hui⟩
  have hin : toResult g1 t ∈ toResult g u :: rest := he ▸ mem_resultsOf_history.2 ⟨g1, hg1, t, ht, ht12, rfl⟩
  have hone : (toResult g1 t).runNumber = 1 := hr1
  have hpos : 1 ≤ (toResult g u).runNumber := h.attempt g hg
  have hr' : (toResult g u).runNumber = 1 := by
    rcases List.mem_cons.1 hin with e | e
    · rw [← e]; exact hone
    · have := hpw.1 _ e
      omega
  refine ⟨hr', fun r' h' => ?_⟩
  have := hpw.1 r' h'
  omega

end Abq.Report
