import Verif.Spec.Fetcher
import Verif.Proof.Retries

/-! # The fetcher (C27) -/

namespace Abq.Fetch
open Abq.Retries Abq.Retries.Spec Abq.Fetch.Spec

/-- What one call of the fetcher may come to. -/
inductive Good (mx : Nat) (h : Hist) (sources : List (List Resp)) (left : List (List Resp)) (h' : Hist) :
    Outcome → Prop
  | first (ws : List WorkerTest) (hne : ws ≠ []) (hs : supplied sources = ws ++ supplied left)
      (hh : h' = { h with manifest := h.manifest ++ ws.map (·.spec), complete := left.isEmpty
                          todo := h.todo ++ ws.map (·.spec.workId) }) :
      Good mx h sources left h' (.bundle ⟨ws, false⟩)
  | retry (ws : List WorkerTest) (hne : ws ≠ []) (hs : supplied sources = []) (hl : left = [])
      (ht : h.todo = [])
      (hr : ws.map (fun w => (w.spec.workId, w.runNumber)) =
        (toRetry h).map (fun s => (s.workId, h.attempt + 1)))
      (hh : h' = { h with attempt := h.attempt + 1, complete := true, todo := ws.map (·.spec.workId) }) :
      Good mx h sources left h' (.bundle ⟨ws, false⟩)
  | done (hs : supplied sources = []) (hl : left = []) (hh : h' = { h with complete := true })
      (hw : h.manifest = [] ∨ h.attempt = mx ∨ (h.todo = [] ∧ toRetry h = [])) :
      Good mx h sources left h' (.bundle ⟨[], true⟩)
  | wait (hs : supplied sources = []) (hl : left = []) (hh : h' = { h with complete := true })
      (ht : h.todo ≠ []) (ha : h.attempt ≠ mx) : Good mx h sources left h' .waiting
  | error (hh : h' = h) : Good mx h sources left h' .error

/-- Before a call. -/
structure Ready (mx : Nat) (h : Hist) (sources : List (List Resp)) (t : Tracker) : Prop where
  sim : Sim mx h t
  complete : h.complete = sources.isEmpty
  nonempty : sources = [] → h.manifest ≠ []
  ends : ∀ src ∈ sources, Ends src
  once : (h.manifest.map (·.workId) ++ (supplied sources).map (·.spec.workId)).Nodup
  first : ∀ w ∈ supplied sources, w.runNumber = 1 ∧ w.spec.focus = none

/-- A call goes well. -/
def Fine (mx : Nat) (h : Hist) (sources : List (List Resp)) (r : Fetcher × Outcome) : Prop :=
  ∃ h', Sim mx h' r.1.tracker ∧ (r.2 ≠ .error → ∀ src ∈ r.1.sources, Ends src) ∧
    Good mx h sources r.1.sources h' r.2

theorem fine_retries {mx : Nat} {h : Hist} {t : Tracker} (r : Ready mx h [] t) :
    Fine mx h [] (fetchRetries t) := by
  have hc : h.complete = true := r.complete
  have hm := r.nonempty rfl
  have hh : h = { h with complete := true } := by cases h; simp_all
  obtain ⟨s', hans, hw⟩ := sim_assemble r.sim ⟨hc, hm⟩
  unfold fetchRetries
  cases hta : t.assemble with
  | mk t1 o =>
    rw [hta] at s' hans hw
    dsimp only at s' hans hw
    cases o with
    | none =>
      simp only [Option.map_none] at hans
      have hn : next mx h .assemble = h := by simp [next, ← hans]
      rw [hn] at s'
      refine ⟨h, s', by simp, .wait rfl rfl hh ?_ ?_⟩
      · intro ht
        unfold answer at hans
        split at hans
        · cases hans
        · simp [ht] at hans
      · intro ha
        simp [answer, ha] at hans
    | some b =>
      obtain ⟨ws, eow⟩ := b
      simp only [Option.map_some] at hans
      cases ws with
      | nil =>
        have hn : next mx h .assemble = h := by simp [next, ← hans]
        rw [hn] at s'
        have : eow = true ∧ (h.attempt = mx ∨ h.todo = [] ∧ toRetry h = []) := by
          unfold answer at hans
          split at hans
          · rename_i ha; simp at hans; exact ⟨hans, .inl ha⟩
          · split at hans
            · rename_i ht
              simp only [List.map_nil, Option.some.injEq, Prod.mk.injEq] at hans
              have hr : toRetry h = [] := by simpa using hans.1.symm
              exact ⟨by rw [hans.2, hr]; rfl, .inr ⟨ht, hr⟩⟩
            · cases hans
        obtain ⟨rfl, hor⟩ := this
        exact ⟨h, s', by simp, .done rfl rfl hh (.inr hor)⟩
      | cons w l =>
        have hn : next mx h .assemble =
            { h with attempt := h.attempt + 1, todo := (w :: l).map (·.spec.workId) } := by
          simp [next, ← hans]
        have : eow = false ∧ h.todo = [] := by
          unfold answer at hans
          split at hans
          · simp at hans
          · split at hans
            · rename_i ht
              simp only [Option.some.injEq, Prod.mk.injEq] at hans
              refine ⟨?_, ht⟩
              rw [hans.2]
              cases hr : toRetry h with
              | nil => rw [hr] at hans; simp at hans
              | cons a b => rfl
            · cases hans
        obtain ⟨rfl, ht⟩ := this
        have hww := hw _ rfl rfl
        rw [hn] at s'
        refine ⟨_, s', by simp, .retry (w :: l) (by simp) rfl rfl ht ?_ (by cases h; simp_all)⟩
        have := congrArg (List.map (fun p : WorkId × Nat × Nat => (p.1, p.2.2))) hww
        simpa [Function.comp_def] using this

theorem supplied_cons (src : List Resp) (rest : List (List Resp)) :
    supplied (src :: rest) = src.flatMap Resp.work ++ supplied rest := by
  simp [supplied]

/-- A call with sources left that brings the same tests. -/
theorem Good.mono {mx : Nat} {h h0 : Hist} {sources sources' left : List (List Resp)} {h' : Hist}
    {o : Outcome} (hs : supplied sources = supplied sources')
    (hh0 : h0 = h ∨ h0 = { h with complete := true } ∧ sources' = [] ∧ o ≠ .error)
    (g : Good mx h0 sources' left h' o) : Good mx h sources left h' o := by
  have htr : toRetry h0 = toRetry h := by
    rcases hh0 with rfl | ⟨rfl, -⟩ <;> rfl
  have hf : h0.manifest = h.manifest ∧ h0.todo = h.todo ∧ h0.attempt = h.attempt ∧ h0.log = h.log := by
    rcases hh0 with rfl | ⟨rfl, -⟩ <;> exact ⟨rfl, rfl, rfl, rfl⟩
  obtain ⟨f1, f2, f3, f4⟩ := hf
  cases g with
  | first ws hne hs' hh =>
    exact .first ws hne (hs.trans hs') (by rw [hh, f1, f2, f3, f4])
  | retry ws hne hs' hl ht hr hh =>
    exact .retry ws hne (hs.trans hs') hl (f2 ▸ ht) (by rw [hr, htr, f3]) (by rw [hh, f1, f3, f4])
  | done hs' hl hh hw =>
    refine .done (hs.trans hs') hl (by rw [hh, f1, f2, f3, f4]) ?_
    rw [f1, f2, f3, htr] at hw
    exact hw
  | wait hs' hl hh ht ha =>
    exact .wait (hs.trans hs') hl (by rw [hh, f1, f2, f3, f4]) (f2 ▸ ht) (f3 ▸ ha)
  | error hh =>
    rcases hh0 with rfl | ⟨-, -, h2⟩
    · exact .error hh
    · exact absurd rfl h2

theorem Fine.mono {mx : Nat} {h h0 : Hist} {sources sources' : List (List Resp)} {r : Fetcher × Outcome}
    (hs : supplied sources = supplied sources')
    (hh0 : h0 = h ∨ h0 = { h with complete := true } ∧ sources' = [] ∧ r.2 ≠ .error)
    (f : Fine mx h0 sources' r) : Fine mx h sources r := by
  obtain ⟨h', s, e, g⟩ := f
  exact ⟨h', s, e, g.mono hs hh0⟩

theorem retries_not_error (t : Tracker) : (fetchRetries t).2 ≠ .error := by
  unfold fetchRetries
  split <;> simp

theorem fine_source {mx : Nat} (rest : List (List Resp))
    (ih : ∀ (h : Hist) (t : Tracker), Ready mx h rest t → Fine mx h rest (fetchFrom rest t)) :
    ∀ (rs : List Resp) (h : Hist) (t : Tracker), Ready mx h (rs :: rest) t →
      Fine mx h (rs :: rest) (fetchSource rest (fetchFrom rest) rs t) := by
  intro rs
  induction rs with
  | nil => intro h t r; exact absurd (r.ends [] (by simp)) (by simp [Ends])
  | cons a rs ihrs =>
    intro h t r
    have hc : h.complete = false := r.complete
    cases a with
    | error =>
      simp only [fetchSource]
      exact ⟨h, r.sim, by simp, .error rfl⟩
    | bundle b =>
      have hend := r.ends (.bundle b :: rs) (by simp)
      simp only [Ends] at hend
      have hsup : supplied ((.bundle b :: rs) :: rest) = b.work ++ supplied (rs :: rest) := by
        simp [supplied, Resp.work]
      have hrestEnds : ∀ src ∈ rest, Ends src := fun src hsrc => r.ends src (by simp [hsrc])
      simp only [fetchSource]
      generalize hleft : (if b.eow = true then rest else rs :: rest) = left
      have hsupl : supplied ((.bundle b :: rs) :: rest) = b.work ++ supplied left := by
        rw [hsup]
        cases he : b.eow with
        | true =>
          rw [he] at hend hleft
          simp only [if_true] at hend hleft
          subst hend hleft
          simp [supplied]
        | false =>
          rw [he] at hleft
          simp only [Bool.false_eq_true, if_false] at hleft
          rw [hleft]
      have hlends : ∀ src ∈ left, Ends src := by
        cases he : b.eow with
        | true =>
          rw [he] at hleft
          simp only [if_true] at hleft
          subst hleft
          exact hrestEnds
        | false =>
          rw [he] at hleft hend
          simp only [Bool.false_eq_true, if_false] at hleft hend
          subst hleft
          intro src hsrc
          simp only [List.mem_cons] at hsrc
          rcases hsrc with rfl | hsrc
          · exact hend
          · exact hrestEnds src hsrc
      have hleftnil : left = [] → b.eow = true ∧ rest = [] := by
        intro hl
        cases he : b.eow with
        | true =>
          rw [he] at hleft
          simp only [if_true] at hleft
          exact ⟨rfl, by rw [hleft]; exact hl⟩
        | false =>
          rw [he, hl] at hleft
          simp at hleft
      have hcont : ∀ h0 t0, Ready mx h0 left t0 →
          Fine mx h0 left (if b.eow = true then fetchFrom rest t0 else fetchSource rest (fetchFrom rest) rs t0) := by
        intro h0 t0 r0
        cases he : b.eow with
        | true =>
          rw [he] at hleft
          simp only [if_true] at hleft ⊢
          subst hleft
          exact ih h0 t0 r0
        | false =>
          rw [he] at hleft
          simp only [Bool.false_eq_true, if_false] at hleft ⊢
          subst hleft
          exact ihrs h0 t0 r0
      have honce := r.once
      rw [hsupl, List.map_append] at honce
      have hfirst := r.first
      rw [hsupl] at hfirst
      by_cases hskip : (b.work.isEmpty && !left.isEmpty) = true
      · rw [if_pos hskip]
        simp only [Bool.and_eq_true, List.isEmpty_iff, Bool.not_eq_true'] at hskip
        obtain ⟨hw, hl⟩ := hskip
        rw [hw] at hsupl honce hfirst
        simp only [List.nil_append] at hsupl
        have r0 : Ready mx h left t :=
          { sim := r.sim
            complete := by rw [hc]; exact hl.symm
            nonempty := by intro e; simp [e] at hl
            ends := hlends
            once := by simpa using honce
            first := by simpa using hfirst }
        exact (hcont h t r0).mono hsupl (.inl rfl)
      · rw [if_neg hskip]
        have hlegal : Legal h (.hydrate b.work (b.eow && left.isEmpty)) := by
          refine ⟨hc, ?_, fun w hw => hfirst w (by simp [hw])⟩
          rw [← List.append_assoc] at honce
          have := (List.nodup_append.mp honce).1
          simpa [List.map_append, Function.comp_def] using this
        obtain ⟨t1, hy, hht, s1, hhy⟩ := sim_hydrate r.sim b.work (b.eow && left.isEmpty) hlegal
        rw [hht]
        have heow : (b.eow && left.isEmpty) = left.isEmpty := by
          cases hl : left.isEmpty with
          | false => simp
          | true => simp [(hleftnil (List.isEmpty_iff.mp hl)).1]
        rw [heow] at hhy s1 ⊢
        simp only [next] at s1
        by_cases hw : b.work = []
        · have hle : left = [] := by
            simp only [hw, List.isEmpty_nil, Bool.true_and, Bool.not_eq_true', Bool.not_eq_false,
              List.isEmpty_iff] at hskip
            exact hskip
          obtain ⟨he, hre⟩ := hleftnil hle
          rw [hle] at hhy s1 ⊢
          rw [hle] at hsupl
          simp only [hw, List.map_nil, List.append_nil, List.isEmpty_nil, if_true] at hhy s1 ⊢
          have hsup0 : supplied ((.bundle b :: rs) :: rest) = [] := by rw [hsupl, hw]; rfl
          by_cases hm : h.manifest = []
          · simp only [hm, if_true] at hhy
            subst hhy
            dsimp only
            refine ⟨_, s1, by simp, .done hsup0 rfl ?_ (.inl hm)⟩
            cases h; simp_all
          · simp only [hm, if_false] at hhy
            subst hhy
            dsimp only
            have hcc := hcont { h with complete := true } t1 (by
              rw [hle]
              exact
                { sim := by simpa using s1
                  complete := rfl
                  nonempty := fun _ => hm
                  ends := by simp
                  once := by simpa [supplied] using r.sim.nodup
                  first := by simp [supplied] })
            rw [he] at hcc ⊢
            simp only [if_true] at hcc ⊢
            refine hcc.mono (by rw [hsup0, hle]; rfl) (.inr ⟨rfl, hle, ?_⟩)
            rw [hre]
            exact retries_not_error t1
        · have hnm : h.manifest ++ b.work.map (·.spec) ≠ [] := by
            intro e
            simp only [List.append_eq_nil_iff, List.map_eq_nil_iff] at e
            exact hw e.2
          simp only [hnm, if_false] at hhy
          have hfine : Fine mx h ((.bundle b :: rs) :: rest) (⟨left, t1⟩, .bundle ⟨b.work, false⟩) :=
            ⟨_, s1, fun _ => hlends, .first b.work hw hsupl rfl⟩
          cases hl : left.isEmpty with
          | true =>
            rw [hl] at hhy
            simp only [if_true] at hhy
            subst hhy
            dsimp only
            have : b.work.isEmpty = false := by simpa using hw
            rw [this]
            exact hfine
          | false =>
            rw [hl] at hhy
            simp only [Bool.false_eq_true, if_false] at hhy
            subst hhy
            exact hfine

theorem fine_fetch {mx : Nat} (sources : List (List Resp)) :
    ∀ (h : Hist) (t : Tracker), Ready mx h sources t → Fine mx h sources (fetchFrom sources t) := by
  induction sources with
  | nil => intro h t r; exact fine_retries r
  | cons rs rest ih => intro h t r; exact fine_source rest ih rs h t r

end Abq.Fetch
