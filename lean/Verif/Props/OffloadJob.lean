import Verif.Proof.OffloadJob
import Verif.Props.ManifestStore
import Verif.Props.Results

/-! # The offload jobs over a directory (C103) -/

namespace Abq.OffloadJob
open Abq.Names Abq.OffloadJob.Spec
open Abq.Results (OffloadConfig OffloadOut fileEligible)

theorem performResults_iff (σ : Results.Res) (c : OffloadConfig) (now acc : Nat) (o : OffloadOut) :
    (performResults σ c now acc o).2 = some true ↔
      σ.fd = some .opened ∧ Stale c now acc σ.disk.length ∧ o = .ok := by
  rw [← eligible_iff]
  unfold performResults
  dsimp only
  cases hfd : σ.fd with
  | none => simp
  | some fd =>
    cases fd with
    | offloaded => simp
    | opened =>
      dsimp only
      by_cases hel : fileEligible c now acc σ.disk.length = true
      · rw [if_pos hel]; cases o <;> simp [hel]
      · rw [if_neg hel]; simp [hel]

theorem performManifest_iff (s : ManifestStore.Store) (c : OffloadConfig) (now acc : Nat) (o : OffloadOut) :
    (performManifest s c now acc o).2 = some true ↔ Stale c now acc s.disk.length ∧ o = .ok := by
  rw [← eligible_iff]
  unfold performManifest
  cases o <;> simp
  all_goals split <;> simp [*]

/-- What a job lists after one more visit. -/
theorem ids_snoc {S A : Type} (j : Job S A) (w : Str → S) (pre : List (Move A)) (e : Entry) (acc : Nat)
    (o : OffloadOut) (P : Str → Prop)
    (hP : ∀ r, P r ↔ choose j.root j.kind j.config j.now e = .run r ∧
      (j.perform ((runMoves j w pre).1 r) j.config j.now acc o).2 = some true) :
    (∀ r, (runMoves j w (pre ++ [.visit e acc o])).2 = (runMoves j w pre).2 ++ [r] ↔ P r) ∧
      ((∀ r, ¬ P r) → (runMoves j w (pre ++ [.visit e acc o])).2 = (runMoves j w pre).2) := by
  rw [runMoves_append]
  simp only [runMoves]
  constructor
  · intro r
    rw [hP]
    constructor
    · intro h
      cases hv : (visit j (runMoves j w pre).1 e acc o).2 with
      | failed => rw [hv] at h; simp at h
      | skipped => rw [hv] at h; simp at h
      | offloaded r' =>
        rw [hv] at h
        have : r' = r := by simpa using h
        subst this
        have hc := visit_offloaded j _ e acc o r' hv
        exact ⟨hc, ((visit_run j _ e acc o r' hc).2).mp hv⟩
    · rintro ⟨hc, hp⟩
      rw [((visit_run j _ e acc o r hc).2).mpr hp]
  · intro hno
    cases hv : (visit j (runMoves j w pre).1 e acc o).2 with
    | failed => simp
    | skipped => simp
    | offloaded r =>
      have hc := visit_offloaded j _ e acc o r hv
      exact absurd ((hP r).mpr ⟨hc, ((visit_run j _ e acc o r hc).2).mp hv⟩) (hno r)

end Abq.OffloadJob

namespace Abq.Props
open Abq.OffloadJob Abq.OffloadJob.Spec
open Abq.Names (Str)
open Abq.Results (OffloadConfig OffloadOut Bytes)

/-- C103: in a job over any directory, whatever is done to the files of any runs meanwhile and whatever
fails, the results file of a run goes through exactly the steps taken on it, and the visits of its own entry
in which it looked stale. So what is proved of the file of one run (C17, C18, C19, C98) holds of the file of
every run; and a failure with one file leaves the others as they would be without it. -/
theorem C103_each_file_alone (root : Str) (c : OffloadConfig) (now : Nat) (w : Str → Results.Res)
    (ms : List (Move Results.Act)) (hl : Listing ms) (listed : Bool) (r : Str) :
    (∃ as, ResultsSteps c now r ms as) ∧
      ∀ as, ResultsSteps c now r ms as →
        (runJob (resultsJob root c now) w ms listed).1 r = Results.run (w r) as := by
  have hl' : ∀ m ms, Listing (m :: ms) → Listing (A := Results.Act) ms := fun m ms h e acc o n hm hn =>
    h e acc o n (List.mem_cons_of_mem _ hm) hn
  constructor
  · induction ms with
    | nil => exact ⟨_, .nil⟩
    | cons m ms ih =>
      obtain ⟨as, has⟩ := ih (hl' _ _ hl)
      cases m with
      | other r' a =>
        by_cases h : r' = r
        · subst h; exact ⟨_, .other a has⟩
        · exact ⟨_, .otherRun r' a h has⟩
      | visit e acc o =>
        by_cases h : FileOf ".results.jsonl" e r ∧
            ∃ a s, e.seen = some (a, s) ∧ Stale c now a s
        · obtain ⟨h1, a, s, h2, h3⟩ := h
          exact ⟨_, .visit e a s acc o h1 h2 h3 has⟩
        · exact ⟨_, .visitNot e acc o (fun a s h1 h2 h3 => h ⟨h1, a, s, h2, h3⟩) has⟩
  · intro as has
    unfold runJob
    dsimp only
    induction has generalizing w with
    | nil => rfl
    | other a hs ih =>
      rw [runMoves, ih _ (hl' _ _ hl), set_same]
      rfl
    | otherRun r' a hr hs ih =>
      rw [runMoves, ih _ (hl' _ _ hl), set_other _ _ (Ne.symm hr)]
    | visit e a s acc o h1 h2 h3 hs ih =>
      rw [runMoves, ih _ (hl' _ _ hl)]
      have hc : choose (resultsJob root c now).root (resultsJob root c now).kind
          (resultsJob root c now).config (resultsJob root c now).now e = .run r :=
        (choose_iff _ _ _ _ _ _ (fun n hn => hl e acc o n (by simp) hn)).mpr ⟨h1, a, s, h2, h3⟩
      rw [(visit_run _ w e acc o r hc).1]
      rfl
    | visitNot e acc o hno hs ih =>
      rw [runMoves, ih _ (hl' _ _ hl), visit_other]
      intro hc
      obtain ⟨h1, a, s, h2, h3⟩ :=
        (choose_iff _ _ _ _ _ _ (fun n hn => hl e acc o n (by simp) hn)).mp hc
      exact hno a s h1 h2 h3

/-- C103: the summary of a job names a run, at the position of the visit of its file, exactly if the visit
moved the file to the remote; it is added nothing by other visits, nor by what others do. -/
theorem C103_summary (root : Str) (c : OffloadConfig) (now : Nat) (w : Str → Results.Res)
    (pre : List (Move Results.Act)) (ids : List Str)
    (hids : (runJob (resultsJob root c now) w pre true).2 = some ids) :
    (runJob (resultsJob root c now) w [] true).2 = some [] ∧
    (∀ r a, (runJob (resultsJob root c now) w (pre ++ [.other r a]) true).2 = some ids) ∧
    ∀ e acc o, Listing (pre ++ [.visit e acc o]) →
      (∀ r, (runJob (resultsJob root c now) w (pre ++ [.visit e acc o]) true).2 = some (ids ++ [r]) ↔
        Goes c now e acc o ((runJob (resultsJob root c now) w pre true).1 r) r) ∧
      ((∀ r, ¬ Goes c now e acc o ((runJob (resultsJob root c now) w pre true).1 r) r) →
        (runJob (resultsJob root c now) w (pre ++ [.visit e acc o]) true).2 = some ids) := by
  unfold runJob at *
  simp only [if_true, Option.some.injEq] at *
  subst hids
  refine ⟨rfl, ?_, ?_⟩
  · intro r a
    rw [runMoves_append]
    simp [runMoves]
  · intro e acc o hl
    refine ids_snoc _ w pre e acc o _ ?_
    intro r
    rw [choose_iff _ _ _ _ _ _ (fun n hn => hl e acc o n (by simp) hn)]
    show _ ↔ _ ∧ (performResults _ c now acc o).2 = some true
    rw [performResults_iff]
    unfold Goes FileOf
    constructor
    · rintro ⟨h1, h2, h3, h4, h5⟩; exact ⟨⟨h1, h2⟩, h3, h4, h5⟩
    · rintro ⟨⟨h1, h2⟩, h3, h4, h5⟩; exact ⟨h1, h2, h3, h4, h5⟩

/-- C103: a file that goes is empty afterwards, and the remote, if there is one, has what it held. -/
theorem C103_offloaded_is_kept (root : Str) (c : OffloadConfig) (now : Nat) (w : Str → Results.Res)
    (pre : List (Move Results.Act)) (e : Entry) (acc : Nat) (o : OffloadOut)
    (hl : Listing (pre ++ [.visit e acc o])) (r : Str)
    (hg : Goes c now e acc o ((runJob (resultsJob root c now) w pre true).1 r) r) :
    ((runJob (resultsJob root c now) w (pre ++ [.visit e acc o]) true).1 r).disk = [] ∧
    (((runJob (resultsJob root c now) w pre true).1 r).noop = false →
      ((runJob (resultsJob root c now) w (pre ++ [.visit e acc o]) true).1 r).remote =
        some ((runJob (resultsJob root c now) w pre true).1 r).disk) := by
  unfold runJob at *
  dsimp only at *
  obtain ⟨h1, h2, h3, h4, rfl⟩ := hg
  rw [runMoves_append]
  simp only [runMoves]
  have hc : choose (resultsJob root c now).root (resultsJob root c now).kind
      (resultsJob root c now).config (resultsJob root c now).now e = .run r :=
    (choose_iff _ _ _ _ _ _ (fun n hn => hl e acc .ok n (by simp) hn)).mpr ⟨h1, h2⟩
  rw [(visit_run _ _ e acc .ok r hc).1]
  generalize (runMoves (resultsJob root c now) w pre).1 r = σ at *
  show (Results.offload σ c now acc .ok).disk = [] ∧ (σ.noop = false →
    (Results.offload σ c now acc .ok).remote = some σ.disk)
  unfold Results.offload
  rw [if_pos ⟨h3, (eligible_iff _ _ _ _).mpr h4⟩]
  refine ⟨rfl, fun hn => ?_⟩
  simp [Results.Res.add, Results.store, hn]

/-- C103: let the job come to the file of a run which this queue has opened, and which looked stale and is
stale, and let nothing fail with this file. If nobody uses the file meanwhile, then whatever fails with the
other files and is done to them, the run is in the summary and its file is empty at the end of the job. -/
theorem C103_stale_files_go_partial (root : Str) (c : OffloadConfig) (now : Nat) (w : Str → Results.Res)
    (pre post : List (Move Results.Act)) (e : Entry) (acc accessed size : Nat) (r : Str)
    (hl : Listing (pre ++ .visit e acc .ok :: post)) (hu : Untouched r (pre ++ .visit e acc .ok :: post))
    (hfirst : ∀ e' acc' o', Move.visit e' acc' o' ∈ pre → ¬ FileOf ".results.jsonl" e' r)
    (hfile : FileOf ".results.jsonl" e r) (hseen : e.seen = some (accessed, size))
    (hlooked : Stale c now accessed size) (hopen : (w r).fd = some .opened)
    (hstale : Stale c now acc (w r).disk.length) :
    (∃ ids, (runJob (resultsJob root c now) w (pre ++ .visit e acc .ok :: post) true).2 = some ids ∧
      r ∈ ids) ∧
    ((runJob (resultsJob root c now) w (pre ++ .visit e acc .ok :: post) true).1 r).disk = [] := by
  -- before the visit the file is as it was
  have hpre : ∀ (pre : List (Move Results.Act)) (w : Str → Results.Res), Listing pre → Untouched r pre →
      (∀ e' acc' o', Move.visit e' acc' o' ∈ pre → ¬ FileOf ".results.jsonl" e' r) →
      (runMoves (resultsJob root c now) w pre).1 r = w r := by
    intro pre
    induction pre with
    | nil => intro w _ _ _; rfl
    | cons m pre ih =>
      intro w hl hu hf
      have hl' : Listing pre := fun e acc o n h => hl e acc o n (by simp [h])
      have hu' : Untouched r pre := fun r' a h => hu r' a (by simp [h])
      have hf' : ∀ e' acc' o', Move.visit e' acc' o' ∈ pre → ¬ FileOf ".results.jsonl" e' r :=
        fun e acc o h => hf e acc o (by simp [h])
      cases m with
      | other r' a =>
        rw [runMoves, ih _ hl' hu' hf', set_other _ _ (Ne.symm (hu r' a (by simp)))]
      | visit e' acc' o' =>
        rw [runMoves, ih _ hl' hu' hf', visit_other]
        intro hc
        exact hf e' acc' o' (by simp)
          ((choose_iff _ _ _ _ _ _ (fun n hn => hl e' acc' o' n (by simp) hn)).mp hc).1
  -- after it the file stays offloaded
  have hpost : ∀ (post : List (Move Results.Act)) (w : Str → Results.Res), Listing post →
      Untouched r post → (w r).fd = some .offloaded → (w r).disk = [] →
      ((runMoves (resultsJob root c now) w post).1 r).disk = [] := by
    intro post
    induction post with
    | nil => intro w _ _ _ h; exact h
    | cons m post ih =>
      intro w hl hu hfd hd
      have hl' : Listing post := fun e acc o n h => hl e acc o n (by simp [h])
      have hu' : Untouched r post := fun r' a h => hu r' a (by simp [h])
      cases m with
      | other r' a =>
        rw [runMoves]
        have := set_other w ((resultsJob root c now).step (w r') a) (Ne.symm (hu r' a (by simp)))
        exact ih _ hl' hu' (by rw [this]; exact hfd) (by rw [this]; exact hd)
      | visit e' acc' o' =>
        rw [runMoves]
        by_cases hc : choose (resultsJob root c now).root (resultsJob root c now).kind
            (resultsJob root c now).config (resultsJob root c now).now e' = .run r
        · have h1 := (visit_run (resultsJob root c now) w e' acc' o' r hc).1
          have h2 : (visit (resultsJob root c now) w e' acc' o').1 r =
              Results.offload (w r) c now acc' o' := h1
          have h3 : Results.offload (w r) c now acc' o' = (w r).add [.offload false] [] := by
            unfold Results.offload
            rw [if_neg (by simp [hfd])]
          exact ih _ hl' hu' (by rw [h2, h3]; exact hfd) (by rw [h2, h3]; exact hd)
        · have h1 := visit_other (resultsJob root c now) w e' acc' o' r hc
          exact ih _ hl' hu' (by rw [h1]; exact hfd) (by rw [h1]; exact hd)
  have hl1 : Listing pre := fun e acc o n h => hl e acc o n (by simp [h])
  have hu1 : Untouched r pre := fun r' a h => hu r' a (by simp [h])
  have hl2 : Listing post := fun e acc o n h => hl e acc o n (by simp [h])
  have hu2 : Untouched r post := fun r' a h => hu r' a (by simp [h])
  have hw := hpre pre w hl1 hu1 hfirst
  have hc : choose (resultsJob root c now).root (resultsJob root c now).kind
      (resultsJob root c now).config (resultsJob root c now).now e = .run r :=
    (choose_iff _ _ _ _ _ _ (fun n hn => hl e acc .ok n (by simp) hn)).mpr
      ⟨hfile, accessed, size, hseen, hlooked⟩
  have hv := visit_run (resultsJob root c now) (runMoves (resultsJob root c now) w pre).1 e acc .ok r hc
  rw [hw] at hv
  have hoff : (performResults (w r) c now acc .ok).2 = some true :=
    (performResults_iff _ _ _ _ _).mpr ⟨hopen, hstale, rfl⟩
  have hst : (performResults (w r) c now acc .ok).1.fd = some .offloaded ∧
      (performResults (w r) c now acc .ok).1.disk = [] := by
    show (Results.offload (w r) c now acc .ok).fd = _ ∧ (Results.offload (w r) c now acc .ok).disk = _
    unfold Results.offload
    rw [if_pos ⟨hopen, (eligible_iff _ _ _ _).mpr hstale⟩]
    exact ⟨rfl, rfl⟩
  unfold runJob
  simp only [if_true, Option.some.injEq, exists_eq_left']
  rw [runMoves_append]
  simp only [runMoves]
  constructor
  · rw [hv.2.mpr hoff]
    simp
  · refine hpost post _ hl2 hu2 ?_ ?_
    · rw [hv.1]; exact hst.1
    · rw [hv.1]; exact hst.2

/-- C103, manifests: the summary of the job names a run exactly if its file was emptied in the visit; a visit
never changes what the remote has, and changes only the file of its entry, if that looked stale and is, and
if the file could be opened and truncated. -/
theorem C103_manifests {V : Type} (codec : ManifestStore.Codec V) (root : Str) (c : OffloadConfig) (now : Nat)
    (w : Str → ManifestStore.Store) (pre : List (Move (ManifestStore.Act V))) (ids : List Str)
    (hids : (runJob (manifestJob codec root c now) w pre true).2 = some ids)
    (e : Entry) (acc : Nat) (o : OffloadOut) (hl : Listing (pre ++ [.visit e acc o])) (r : Str) :
    ((runJob (manifestJob codec root c now) w (pre ++ [.visit e acc o]) true).2 = some (ids ++ [r]) ↔
      GoesManifest c now e acc o ((runJob (manifestJob codec root c now) w pre true).1 r) r) ∧
    ((∀ r, ¬ GoesManifest c now e acc o ((runJob (manifestJob codec root c now) w pre true).1 r) r) →
      (runJob (manifestJob codec root c now) w (pre ++ [.visit e acc o]) true).2 = some ids) ∧
    (GoesManifest c now e acc o ((runJob (manifestJob codec root c now) w pre true).1 r) r →
      (runJob (manifestJob codec root c now) w (pre ++ [.visit e acc o]) true).1 r =
        { (runJob (manifestJob codec root c now) w pre true).1 r with disk := [] }) ∧
    ((runJob (manifestJob codec root c now) w (pre ++ [.visit e acc o]) true).1 r ≠
        (runJob (manifestJob codec root c now) w pre true).1 r →
      (o = .ok ∨ o = .syncFails) ∧
        GoesManifest c now e acc .ok ((runJob (manifestJob codec root c now) w pre true).1 r) r ∧
        (runJob (manifestJob codec root c now) w (pre ++ [.visit e acc o]) true).1 r =
          { (runJob (manifestJob codec root c now) w pre true).1 r with disk := [] }) := by
  unfold runJob at *
  simp only [if_true, Option.some.injEq] at *
  subst hids
  have hci := fun r => choose_iff root .manifest c now e r (fun n hn => hl e acc o n (by simp) hn)
  have hkey := ids_snoc (manifestJob codec root c now) w pre e acc o
    (fun r => GoesManifest c now e acc o ((runMoves (manifestJob codec root c now) w pre).1 r) r) (by
      intro r
      show _ ↔ choose root .manifest c now e = .run r ∧ (performManifest _ c now acc o).2 = some true
      rw [hci, performManifest_iff]
      unfold GoesManifest FileOf
      constructor
      · rintro ⟨h1, h2, h3, h4⟩; exact ⟨⟨h1, h2⟩, h3, h4⟩
      · rintro ⟨⟨h1, h2⟩, h3, h4⟩; exact ⟨h1, h2, h3, h4⟩)
  refine ⟨hkey.1 r, hkey.2, ?_, ?_⟩
  · rintro ⟨h1, h2, h3, rfl⟩
    rw [runMoves_append]
    simp only [runMoves]
    have hc : choose root .manifest c now e = .run r := (hci r).mpr ⟨h1, h2⟩
    rw [(visit_run (manifestJob codec root c now) _ e acc .ok r hc).1]
    show ManifestStore.offload _ c now acc true = _
    unfold ManifestStore.offload
    rw [(eligible_iff _ _ _ _).mpr h3]
    rfl
  · rw [runMoves_append]
    simp only [runMoves]
    intro hne
    by_cases hc : choose root .manifest c now e = .run r
    · have hv := (visit_run (manifestJob codec root c now) (runMoves (manifestJob codec root c now) w pre).1
        e acc o r hc).1
      rw [hv] at hne ⊢
      generalize (runMoves (manifestJob codec root c now) w pre).1 r = s at *
      change (performManifest s c now acc o).1 ≠ s at hne
      show _ ∧ _ ∧ (performManifest s c now acc o).1 = _
      have hel : Stale c now acc s.disk.length := by
        apply Classical.byContradiction
        intro hno
        apply hne
        rw [← eligible_iff] at hno
        unfold performManifest ManifestStore.offload
        cases o <;> simp [hno]
      refine ⟨?_, ⟨((hci r).mp hc).1, ((hci r).mp hc).2, hel, rfl⟩, ?_⟩
      · unfold performManifest ManifestStore.offload at hne
        cases o <;> simp at hne ⊢
      rw [← eligible_iff] at hel
      unfold performManifest ManifestStore.offload at hne ⊢
      cases o <;> simp [hel] at hne ⊢
    · exact absurd (visit_other (manifestJob codec root c now) _ e acc o r hc) hne

/-- C103: a results file this queue has not opened since it started, such as all that an earlier queue left
behind, is not offloaded by any job, however old it is; the visit fails. -/
theorem C103_unopened_files_stay (root : Str) (jobs : List (OffloadConfig × Nat × List (Move Results.Act)))
    (w : Str → Results.Res) (r : Str) (hl : ∀ j ∈ jobs, Listing j.2.2) (hu : ∀ j ∈ jobs, Untouched r j.2.2)
    (hfd : (w r).fd = none) :
    let w' := jobs.foldl (fun w j => (runJob (resultsJob root j.1 j.2.1) w j.2.2 true).1) w
    (w' r).disk = (w r).disk ∧ (w' r).remote = (w r).remote ∧ (w' r).fd = none := by
  have hone : ∀ (c : OffloadConfig) (now : Nat) (ms : List (Move Results.Act)) (w : Str → Results.Res),
      Listing ms → Untouched r ms → (w r).fd = none →
      let w' := (runMoves (resultsJob root c now) w ms).1
      (w' r).disk = (w r).disk ∧ (w' r).remote = (w r).remote ∧ (w' r).fd = none := by
    intro c now ms
    induction ms with
    | nil => intro w _ _ h; exact ⟨rfl, rfl, h⟩
    | cons m ms ih =>
      intro w hl hu hfd
      have hl' : Listing ms := fun e acc o n h => hl e acc o n (by simp [h])
      have hu' : Untouched r ms := fun r' a h => hu r' a (by simp [h])
      cases m with
      | other r' a =>
        have hs := set_other w ((resultsJob root c now).step (w r') a) (Ne.symm (hu r' a (by simp)))
        have := ih (OffloadJob.set w r' ((resultsJob root c now).step (w r') a)) hl' hu' (by rw [hs]; exact hfd)
        simpa only [runMoves, hs] using this
      | visit e acc o =>
        have hs : ((visit (resultsJob root c now) w e acc o).1 r).disk = (w r).disk ∧
            ((visit (resultsJob root c now) w e acc o).1 r).remote = (w r).remote ∧
            ((visit (resultsJob root c now) w e acc o).1 r).fd = none := by
          by_cases hc : choose (resultsJob root c now).root (resultsJob root c now).kind
              (resultsJob root c now).config (resultsJob root c now).now e = .run r
          · have h2 : (visit (resultsJob root c now) w e acc o).1 r = Results.offload (w r) c now acc o :=
              (visit_run (resultsJob root c now) w e acc o r hc).1
            rw [h2]
            unfold Results.offload
            rw [if_neg (by simp [hfd])]
            exact ⟨rfl, rfl, hfd⟩
          · rw [visit_other _ _ _ _ _ _ hc]
            exact ⟨rfl, rfl, hfd⟩
        have := ih _ hl' hu' hs.2.2
        simp only [runMoves]
        exact ⟨this.1.trans hs.1, this.2.1.trans hs.2.1, this.2.2⟩
  induction jobs generalizing w with
  | nil => exact ⟨rfl, rfl, hfd⟩
  | cons j jobs ih =>
    have h := hone j.1 j.2.1 j.2.2 w (hl j (by simp)) (hu j (by simp)) hfd
    have := ih ((runJob (resultsJob root j.1 j.2.1) w j.2.2 true).1)
      (fun j h => hl j (by simp [h])) (fun j h => hu j (by simp [h])) h.2.2
    exact ⟨this.1.trans h.1, this.2.1.trans h.2.1, this.2.2⟩

/-- C103: a job over a directory loses no results of any run: whatever is done and fails meanwhile, a reader
of the results of a run gets what its file held when it was first opened and everything put in it since, in
order. Excepted is a job that failed to sync the truncation of this very file (C19). -/
theorem C103_nothing_lost_partial (root : Str) (c : OffloadConfig) (now : Nat) (w : Str → Results.Res)
    (ms : List (Move Results.Act)) (hl : Listing ms) (listed : Bool) (r : Str) (noop : Bool) (disk : Bytes)
    (remote : Option Bytes) (hw : w r = Results.init noop disk remote)
    (hsync : ∀ e acc, Move.visit e acc .syncFails ∈ ms → ¬ FileOf ".results.jsonl" e r)
    (hothers : ∀ a, Move.other r a ∈ ms → Results.Spec.Safe a) (pre post : List Results.Ev) (k : Nat)
    (bytes : Bytes)
    (h : ((runJob (resultsJob root c now) w ms listed).1 r).events = pre ++ .stream k bytes :: post) :
    ∃ base, Results.Spec.bases pre = [base] ∧ bytes = Results.Spec.content base pre := by
  obtain ⟨⟨as, has⟩, heq⟩ := C103_each_file_alone root c now w ms hl listed r
  rw [heq as has, hw] at h
  refine C19_stream_is_everything_written_partial noop disk remote as ?_ pre post k bytes h
  clear h heq hw hl
  induction has with
  | nil => simp
  | other a hs ih =>
    intro x hx
    rcases List.mem_cons.mp hx with rfl | hx
    · exact hothers _ (by simp)
    · exact ih (fun e acc h => hsync e acc (by simp [h])) (fun a h => hothers a (by simp [h])) x hx
  | otherRun r' a hr hs ih =>
    exact ih (fun e acc h => hsync e acc (by simp [h])) (fun a h => hothers a (by simp [h]))
  | visit e a s acc o h1 h2 h3 hs ih =>
    intro x hx
    rcases List.mem_cons.mp hx with rfl | hx
    · cases o with
      | syncFails => exact absurd h1 (hsync e acc (by simp))
      | _ => trivial
    · exact ih (fun e acc h => hsync e acc (by simp [h])) (fun a h => hothers a (by simp [h])) x hx
  | visitNot e acc o hno hs ih =>
    exact ih (fun e acc h => hsync e acc (by simp [h])) (fun a h => hothers a (by simp [h]))

/-- The files of two runs, opened and written to by this queue. -/
def offloadWorld : Str → Results.Res := fun r =>
  if r = "a".toList then { Results.init false [1, 10] none with fd := some .opened }
  else if r = "b".toList then { Results.init false [2, 10] none with fd := some .opened }
  else Results.init false [] none

/-- A directory with a foreign file, a manifest, and the files of the two runs, that of the first of which cannot be
stored; meanwhile results of another run are reported. -/
def offloadMoves : List (Move Results.Act) :=
  [.visit ⟨some "notes".toList, some (10, 3)⟩ 10 .ok, .visit ⟨some "b.manifest.json".toList, some (10, 3)⟩ 10 .ok,
   .visit ⟨none, some (10, 3)⟩ 10 .ok, .visit ⟨some "a.results.jsonl".toList, some (10, 2)⟩ 10 .storeFails,
   .other "z".toList (.results [7] true), .visit ⟨some "b.results.jsonl".toList, some (10, 2)⟩ 10 .ok,
   .visit ⟨some "z.results.jsonl".toList, none⟩ 10 .ok]

/-- Only the second run goes, and its results are in the remote. -/
example :
    let out := runJob (resultsJob "/d".toList (some 5) 20) offloadWorld offloadMoves true
    out.2 = some ["b".toList] ∧ (out.1 "a".toList).disk = [1, 10] ∧ (out.1 "b".toList).disk = [] ∧
      (out.1 "b".toList).remote = some [2, 10] ∧ (out.1 "z".toList).processing = 1 := by
  decide

/-- What the hypotheses ask for: `Listing` and `Untouched` hold, and the second run goes. -/
example : Listing offloadMoves ∧ Untouched "b".toList offloadMoves ∧
    Goes (some 5) 20 ⟨some "b.results.jsonl".toList, some (10, 2)⟩ 10 .ok (offloadWorld "b".toList) "b".toList := by
  refine ⟨?_, ?_, rfl, ⟨10, 2, rfl, ?_⟩, rfl, ?_, rfl⟩
  · intro e acc o n hm hn
    simp only [offloadMoves, List.mem_cons, Move.visit.injEq, reduceCtorEq, List.not_mem_nil, or_false,
      false_or] at hm
    rcases hm with ⟨rfl, -⟩ | ⟨rfl, -⟩ | ⟨rfl, -⟩ | ⟨rfl, -⟩ | ⟨rfl, -⟩ | ⟨rfl, -⟩ <;>
      first
        | (cases hn; unfold FileName; decide)
        | (exact nomatch hn)
  · intro r' a hm
    simp only [offloadMoves, List.mem_cons, reduceCtorEq, List.not_mem_nil, or_false, false_or,
      Move.other.injEq] at hm
    rw [hm.1]; decide
  · exact ⟨by decide, 5, rfl, by decide, by decide⟩
  · exact ⟨by decide, 5, rfl, by decide, by decide⟩

/-- C103 in full: after a job in which nothing fails and that visits the file of a run, which is stale, the file
is in the remote. -/
def StaleFilesGo : Prop :=
  ∀ (c : OffloadConfig) (now : Nat) (w : Str → Results.Res) (r : Str) (acc : Nat),
    '/' ∉ r → (w r).noop = false → Stale c now acc (w r).disk.length →
    ((runJob (resultsJob "/d".toList c now) w
      [.visit ⟨some (r ++ ".results.jsonl".toList), some (acc, (w r).disk.length)⟩ acc .ok] true).1 r).remote =
      some (w r).disk

/-- C103 does not hold in full: a queue that was started again does not offload the results files that were
there before, as `C103_unopened_files_stay` says. -/
theorem C103_full_statement_fails : ¬ StaleFilesGo := by
  intro h
  have := h (some 5) 20 (fun _ => Results.init false [1, 10] none) "a".toList 10 (by decide) rfl
    ⟨by decide, 5, rfl, by decide, by decide⟩
  revert this
  decide

/-- A manifest is dumped while the remote fails, so it is only on the disk, from where it can be fetched. Then
the job empties the file, taking it that the remote has the manifest, and it is lost: no fetch gets it any
more. -/
theorem C103_manifest_only_copy_emptied :
    ∃ ms : List (Move (ManifestStore.Act Nat)),
      let w : Str → ManifestStore.Store := fun _ => { noop := false, disk := [], remote := none }
      let w' := (runJob (manifestJob ManifestStore.numCodec "/d".toList (some 5) 20) w ms true).1
      (ManifestStore.run ManifestStore.numCodec ((runJob (manifestJob ManifestStore.numCodec "/d".toList (some 5) 20) w (ms.take 1) true).1
        "a".toList) [.fetch true .ok]).2 = [.fetched (some 3)] ∧
      (runJob (manifestJob ManifestStore.numCodec "/d".toList (some 5) 20) w ms true).2 = some ["a".toList] ∧
      ∀ (more : List (ManifestStore.Act Nat)), (∀ v o, ManifestStore.Act.dump v o ∉ more) →
        ∀ v, ManifestStore.Ev.fetched (some v) ∉ (ManifestStore.run ManifestStore.numCodec (w' "a".toList) more).2 := by
  refine ⟨[.other "a".toList (.dump 3 .storeFails),
    .visit ⟨some "a.manifest.json".toList, some (10, 4)⟩ 10 .ok], by decide, by decide, ?_⟩
  have hs : ∀ (more : List (ManifestStore.Act Nat)) (s : ManifestStore.Store), s.disk = [] → s.remote = none →
      (∀ v o, ManifestStore.Act.dump v o ∉ more) →
      ∀ v, ManifestStore.Ev.fetched (some v) ∉ (ManifestStore.run ManifestStore.numCodec s more).2 := by
    intro more
    induction more with
    | nil => intro s _ _ _ v; simp [ManifestStore.run]
    | cons a more ih =>
      intro s hd hr hno v
      have hno' : ∀ v o, ManifestStore.Act.dump v o ∉ more := fun v o h => hno v o (by simp [h])
      obtain ⟨k, hk⟩ : ∃ k, ManifestStore.numCodec.decode [] = .error k := ⟨_, rfl⟩
      cases a with
      | dump v' o => exact absurd (by simp) (hno v' o)
      | fetch b o =>
        have hf : ManifestStore.fetch ManifestStore.numCodec s b o = (none, s) := by
          unfold ManifestStore.fetch
          rw [hd, hk, hr]
          cases b <;> cases s <;> simp_all [Results.load]
        simp only [ManifestStore.run, ManifestStore.step, hf, List.mem_cons, not_or]
        exact ⟨by simp, ih s hd hr hno' v⟩
      | offload c now acc t =>
        have hf : ManifestStore.offload s c now acc t = s := by
          unfold ManifestStore.offload
          cases s
          simp_all
        simp only [ManifestStore.run, ManifestStore.step, hf, List.mem_cons, not_or]
        exact ⟨by simp, ih s hd hr hno' v⟩
  intro more hno v
  exact hs more _ (by decide) (by decide) hno v

end Abq.Props
