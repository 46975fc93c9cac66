import Verif.Proof.Fetcher

/-! # A runner and its fetcher (C27) -/

namespace Abq.Fetch
open Abq.Retries Abq.Retries.Spec Abq.Fetch.Spec

/-- Work id and attempt. -/
def key (w : WorkerTest) : WorkId × Nat := (w.spec.workId, w.runNumber)
def rkey (r : Results) : WorkId × Nat := (r.workId, r.runNumber)

structure Inv (mx : Nat) (src0 : List (List Resp)) (s : Sys) (h : Hist) (fs rs : List WorkerTest) :
    Prop where
  fine : s.panicked = false
  sim : Sim mx h s.fetcher.tracker
  log : h.log = s.log
  given : s.given = fs ++ rs
  firsts : fs.map (·.spec) = h.manifest
  pre : fs <+: supplied src0
  rest : s.failed = false → supplied src0 = fs ++ supplied s.fetcher.sources
  later : rs ≠ [] → fs = supplied src0
  numbers : ∀ w ∈ rs, 2 ≤ w.runNumber ∧ w.runNumber ≤ mx
  todo : s.given.map key = s.log.map rkey ++ h.todo.map (fun id => (id, h.attempt))
  live : s.stopped = false → h.complete = s.fetcher.sources.isEmpty ∧
    (s.fetcher.sources = [] → h.manifest ≠ []) ∧ (∀ src ∈ s.fetcher.sources, Ends src) ∧ s.failed = false
  empties : ∀ b ∈ s.delivered, (b.work = [] ↔ b.eow = true)
  eows : ∀ b ∈ s.delivered, b.eow = true →
    s.stopped = true ∧ s.failed = false ∧ s.fetcher.sources = [] ∧
      s.delivered.getLast? = some b ∧
      (h.manifest = [] ∨ h.attempt = mx ∨ (h.todo = [] ∧ toRetry h = []))
  again : ∀ sp ∈ h.manifest, ∀ j, 2 ≤ j → j ≤ h.attempt →
    (sp.workId, j) ∈ s.given.map key ∨ alwaysFailed h.log sp.workId (j - 1) = false

theorem inv_init (mx : Nat) (hmx : 1 ≤ mx) (src0 : List (List Resp)) (wf : WellFormed src0) :
    Inv mx src0 (init src0 mx) start [] [] where
  fine := rfl
  sim := sim_start mx hmx
  log := rfl
  given := rfl
  firsts := rfl
  pre := List.nil_prefix
  rest := fun _ => rfl
  later := by simp
  numbers := by simp
  todo := rfl
  live := fun _ => ⟨by
      have := wf.some
      simp only [init, start]
      cases src0 <;> simp_all, fun e => absurd e wf.some, wf.ends, rfl⟩
  empties := by simp [init]
  eows := by simp [init]
  again := by simp [start]

theorem alwaysFailed_append_lt (log rs : List Results) (id : WorkId) (k a : Nat)
    (h : ∀ r ∈ rs, r.runNumber = a) (hk : k < a) :
    alwaysFailed (log ++ rs) id k = alwaysFailed log id k := by
  have := streak_append_lt log rs id a k h hk
  have h1 := streak_eq_iff log id k
  have h2 := streak_eq_iff (log ++ rs) id k
  rw [this, h1] at h2
  exact (Bool.eq_iff_iff.mpr h2).symm

theorem inv_account {mx : Nat} {src0 : List (List Resp)} {s : Sys} {h : Hist}
    {firsts retries : List WorkerTest} (i : Inv mx src0 s h firsts retries) (rs : List Results) :
    ∃ h', Inv mx src0 (step s (.account rs)) h' firsts retries := by
  simp only [step]
  by_cases hin : (s.inOrder rs && !s.panicked) = true
  · rw [if_pos hin]
    simp only [Bool.and_eq_true, Sys.inOrder, List.isPrefixOf_iff_prefix] at hin
    have hpre := hin.1
    have hg : s.given.map (fun w => (w.spec.workId, w.runNumber)) =
        s.log.map rkey ++ h.todo.map (fun id => (id, h.attempt)) := i.todo
    rw [hg, List.map_append] at hpre
    have hpre' : rs.map rkey <+: h.todo.map (fun id => (id, h.attempt)) :=
      (List.prefix_append_right_inj _).mp hpre
    have hids : rs.map (·.workId) <+: h.todo := by
      have := hpre'.map Prod.fst
      simpa [rkey, Function.comp_def] using this
    have hrun : ∀ r ∈ rs, r.runNumber = h.attempt := by
      intro r hr
      have : rkey r ∈ h.todo.map (fun id => (id, h.attempt)) :=
        hpre'.subset (List.mem_map.mpr ⟨r, hr, rfl⟩)
      simp only [List.mem_map, rkey, Prod.mk.injEq] at this
      obtain ⟨_, _, _, h2⟩ := this
      exact h2.symm
    obtain ⟨t', ht', s'⟩ := sim_account rs i.sim ⟨hids, hrun⟩
    rw [ht']
    have htodo : h.todo = rs.map (·.workId) ++ h.todo.drop rs.length := by
      obtain ⟨l, hl⟩ := hids
      rw [← hl]
      simp
    refine ⟨next mx h (.account rs), ?_⟩
    exact
      { fine := i.fine
        sim := s'
        log := by simp [next, i.log]
        given := i.given
        firsts := i.firsts
        pre := i.pre
        rest := i.rest
        later := i.later
        numbers := i.numbers
        todo := by
          have := i.todo
          simp only [Sys.given] at this ⊢
          rw [this]
          conv => lhs; rw [htodo]
          simp only [next, List.map_append, List.map_map, List.append_assoc]
          congr 2
          apply List.map_congr_left
          intro r hr
          simp [rkey, hrun r hr]
        live := i.live
        empties := i.empties
        eows := by
          intro b hb he
          obtain ⟨h1, h2, h3, h4, h5⟩ := i.eows b hb he
          refine ⟨h1, h2, h3, h4, ?_⟩
          rcases h5 with h5 | h5 | ⟨h5, h6⟩
          · exact .inl h5
          · exact .inr (.inl h5)
          · right; right
            have : rs = [] := by
              rw [h5] at hids
              simpa using hids
            subst this
            simp only [next, List.append_nil, List.length_nil, List.drop_zero]
            exact ⟨h5, h6⟩
        again := by
          intro sp hsp j hj hja
          change j ≤ h.attempt at hja
          rcases i.again sp hsp j hj hja with h1 | h1
          · exact .inl h1
          · right
            simp only [next]
            rw [alwaysFailed_append_lt _ _ _ _ _ hrun (by omega)]
            exact h1 }
  · rw [if_neg hin]
    exact ⟨h, i⟩

theorem inv_ready {mx : Nat} {src0 : List (List Resp)} (wf : WellFormed src0) {s : Sys} {h : Hist}
    {firsts retries : List WorkerTest} (i : Inv mx src0 s h firsts retries) (hs : s.stopped = false) :
    Ready mx h s.fetcher.sources s.fetcher.tracker := by
  obtain ⟨h1, h2, h3, h4⟩ := i.live hs
  have hsup := i.rest h4
  exact
    { sim := i.sim
      complete := h1
      nonempty := h2
      ends := h3
      once := by
        have := wf.once
        rw [hsup] at this
        rw [← i.firsts]
        simpa [Function.comp_def] using this
      first := fun w hw => wf.first w (by rw [hsup]; simp [hw]) }

theorem inv_fetch {mx : Nat} {src0 : List (List Resp)} (wf : WellFormed src0) {s : Sys} {h : Hist}
    {firsts retries : List WorkerTest} (i : Inv mx src0 s h firsts retries) :
    ∃ h' firsts' retries', Inv mx src0 (step s .fetch) h' firsts' retries' := by
  simp only [step]
  by_cases hst : (s.stopped || s.panicked) = true
  · rw [if_pos hst]; exact ⟨h, firsts, retries, i⟩
  · rw [if_neg hst]
    simp only [Bool.or_eq_true, not_or, Bool.not_eq_true] at hst
    obtain ⟨hstop, -⟩ := hst
    have hready := inv_ready wf i hstop
    obtain ⟨hlive1, hlive2, hlive3, hnf⟩ := i.live hstop
    have hsup := i.rest hnf
    have hne : ∀ b ∈ s.delivered, b.eow = false := by
      intro b hb
      cases he : b.eow with
      | false => rfl
      | true => rw [(i.eows b hb he).1] at hstop; cases hstop
    have hfine := fine_fetch s.fetcher.sources h s.fetcher.tracker hready
    unfold Fetcher.fetch
    generalize fetchFrom s.fetcher.sources s.fetcher.tracker = r at hfine
    obtain ⟨f, o⟩ := r
    obtain ⟨h', sim', hends, g⟩ := hfine
    dsimp only at sim' hends g
    have hnoretry : supplied s.fetcher.sources ≠ [] → retries = [] := by
      intro hx
      cases hr : retries with
      | nil => rfl
      | cons a l =>
        have := i.later (by simp [hr])
        rw [hsup] at this
        have hl := congrArg List.length this
        simp only [List.length_append] at hl
        have : supplied s.fetcher.sources = [] := List.length_eq_zero_iff.mp (by omega)
        exact absurd this hx
    cases g with
    | first ws hne' hs' hh =>
      have hx : supplied s.fetcher.sources ≠ [] := by rw [hs']; simp [hne']
      have hr := hnoretry hx
      have hsrc : s.fetcher.sources ≠ [] := by
        intro e; rw [e] at hx; exact hx rfl
      have hatt : h.attempt = 1 := i.sim.first (by
        rw [hlive1]; cases hq : s.fetcher.sources <;> simp_all)
      refine ⟨h', firsts ++ ws, [], ?_⟩
      have hgiven : Sys.given { s with fetcher := f, delivered := s.delivered ++ [⟨ws, false⟩],
                                       stopped := false } = s.given ++ ws := by
        simp [Sys.given]
      subst hh
      exact
        { fine := i.fine
          sim := sim'
          log := i.log
          given := by rw [hgiven, i.given, hr]; simp
          firsts := by simp [i.firsts]
          pre := by rw [hsup, hs']; simp [← List.append_assoc]
          rest := by intro _; rw [hsup, hs']; simp
          later := by simp
          numbers := by simp
          todo := by
            rw [hgiven, List.map_append, i.todo]
            simp only [List.map_append, List.append_assoc, List.map_map]
            congr 2
            apply List.map_congr_left
            intro w hw
            have := (hready.first w (by rw [hs']; simp [hw])).1
            simp [key, this, hatt]
          live := by
            intro _
            refine ⟨rfl, ?_, hends (by simp), hnf⟩
            intro _ hm
            simp only [List.append_eq_nil_iff, List.map_eq_nil_iff] at hm
            exact hne' hm.2
          empties := by
            intro b hb
            simp only [List.mem_append, List.mem_singleton] at hb
            rcases hb with hb | rfl
            · exact i.empties b hb
            · simp [hne']
          eows := by
            intro b hb he
            simp only [List.mem_append, List.mem_singleton] at hb
            rcases hb with hb | rfl
            · rw [hne b hb] at he; cases he
            · cases he
          again := by
            intro sp hsp j hj hja
            dsimp only at hja
            omega }
    | retry ws hne' hs' hl ht hr hh =>
      refine ⟨h', firsts, retries ++ ws, ?_⟩
      have hgiven : Sys.given { s with fetcher := f, delivered := s.delivered ++ [⟨ws, false⟩],
                                       stopped := false } = s.given ++ ws := by
        simp [Sys.given]
      have hnum : ∀ w ∈ ws, w.runNumber = h.attempt + 1 := by
        intro w hw
        have : (w.spec.workId, w.runNumber) ∈ ws.map (fun w => (w.spec.workId, w.runNumber)) :=
          List.mem_map.mpr ⟨w, hw, rfl⟩
        rw [hr, List.mem_map] at this
        obtain ⟨q, _, hq⟩ := this
        simp only [Prod.mk.injEq] at hq
        exact hq.2.symm
      have hall : firsts = supplied src0 := by rw [hsup, hs']; simp
      have hsrcnil : f.sources = [] := hl
      have hm : h.manifest ≠ [] := by
        intro hm
        have : toRetry h = [] := by simp [toRetry, hm]
        rw [this] at hr
        simp at hr
        exact hne' hr
      subst hh
      exact
        { fine := i.fine
          sim := sim'
          log := i.log
          given := by rw [hgiven, i.given, List.append_assoc]
          firsts := i.firsts
          pre := i.pre
          rest := by intro _; rw [hall, hsrcnil]; simp [supplied]
          later := fun _ => hall
          numbers := by
            intro w hw
            simp only [List.mem_append] at hw
            rcases hw with hw | hw
            · exact i.numbers w hw
            · have := hnum w hw
              have h1 := i.sim.pos
              have h2 := sim'.le
              dsimp only at h2
              omega
          todo := by
            rw [hgiven, List.map_append, i.todo, ht]
            simp only [List.map_nil, List.append_nil, List.map_map]
            congr 1
            apply List.map_congr_left
            intro w hw
            simp [key, hnum w hw]
          live := by
            intro _
            exact ⟨by rw [hsrcnil]; rfl, fun _ => hm, hends (by simp), hnf⟩
          empties := by
            intro b hb
            simp only [List.mem_append, List.mem_singleton] at hb
            rcases hb with hb | rfl
            · exact i.empties b hb
            · simp [hne']
          eows := by
            intro b hb he
            simp only [List.mem_append, List.mem_singleton] at hb
            rcases hb with hb | rfl
            · rw [hne b hb] at he; cases he
            · cases he
          again := by
            intro sp hsp j hj hja
            dsimp only at hja hsp
            rw [hgiven, List.map_append]
            by_cases hj2 : j ≤ h.attempt
            · rcases i.again sp hsp j hj hj2 with h1 | h1
              · exact .inl (by simp [h1])
              · exact .inr h1
            · have hj3 : j = h.attempt + 1 := by omega
              subst hj3
              cases hf : alwaysFailed h.log sp.workId h.attempt with
              | false => exact .inr (by simpa using hf)
              | true =>
                left
                have hmem : sp ∈ toRetry h := by simp [toRetry, hsp, hf]
                have : (sp.workId, h.attempt + 1) ∈ ws.map (fun w => (w.spec.workId, w.runNumber)) := by
                  rw [hr]; exact List.mem_map.mpr ⟨sp, hmem, rfl⟩
                exact List.mem_append.mpr (.inr this) }
    | done hs' hl hh hw =>
      refine ⟨h', firsts, retries, ?_⟩
      have hgiven : Sys.given { s with fetcher := f, delivered := s.delivered ++ [⟨[], true⟩],
                                       stopped := true } = s.given := by
        simp [Sys.given]
      have hall : firsts = supplied src0 := by rw [hsup, hs']; simp
      have hsrcnil : f.sources = [] := hl
      subst hh
      exact
        { fine := i.fine
          sim := sim'
          log := i.log
          given := by rw [hgiven, i.given]
          firsts := i.firsts
          pre := i.pre
          rest := by intro _; rw [hall, hsrcnil]; simp [supplied]
          later := i.later
          numbers := i.numbers
          todo := by rw [hgiven]; exact i.todo
          live := by simp
          empties := by
            intro b hb
            simp only [List.mem_append, List.mem_singleton] at hb
            rcases hb with hb | rfl
            · exact i.empties b hb
            · simp
          eows := by
            intro b hb he
            simp only [List.mem_append, List.mem_singleton] at hb
            rcases hb with hb | rfl
            · rw [hne b hb] at he; cases he
            · exact ⟨rfl, hnf, hsrcnil, by simp, hw⟩
          again := by rw [hgiven]; exact i.again }
    | wait hs' hl hh ht ha =>
      refine ⟨h', firsts, retries, ?_⟩
      have hall : firsts = supplied src0 := by rw [hsup, hs']; simp
      have hsrcnil : f.sources = [] := hl
      have hm : h.manifest ≠ [] := by
        intro hm
        cases htd : h.todo with
        | nil => exact ht htd
        | cons a l =>
          have := i.sim.todoMem a (by simp [htd])
          simp [hm] at this
      subst hh
      exact
        { fine := i.fine
          sim := sim'
          log := i.log
          given := i.given
          firsts := i.firsts
          pre := i.pre
          rest := by intro _; rw [hall, hsrcnil]; simp [supplied]
          later := i.later
          numbers := i.numbers
          todo := i.todo
          live := by
            intro _
            exact ⟨by rw [hsrcnil]; rfl, fun _ => hm, hends (by simp), hnf⟩
          empties := i.empties
          eows := by
            intro b hb he
            rw [hne b hb] at he; cases he
          again := i.again }
    | error hh =>
      refine ⟨h', firsts, retries, ?_⟩
      subst hh
      exact
        { fine := i.fine
          sim := sim'
          log := i.log
          given := i.given
          firsts := i.firsts
          pre := i.pre
          rest := by simp
          later := i.later
          numbers := i.numbers
          todo := i.todo
          live := by simp
          empties := i.empties
          eows := by
            intro b hb he
            rw [hne b hb] at he; cases he
          again := i.again }

theorem inv_run {mx : Nat} {src0 : List (List Resp)} (wf : WellFormed src0) (as : List Act) :
    ∀ {s : Sys} {h : Hist} {firsts retries : List WorkerTest}, Inv mx src0 s h firsts retries →
      ∃ h' firsts' retries', Inv mx src0 (run s as) h' firsts' retries' := by
  induction as with
  | nil => intro s h f r i; exact ⟨h, f, r, i⟩
  | cons a as ih =>
    intro s h f r i
    cases a with
    | fetch =>
      obtain ⟨_, _, _, i'⟩ := inv_fetch wf i
      exact ih i'
    | account rs =>
      obtain ⟨_, i'⟩ := inv_account i rs
      exact ih i'

theorem inv_of_run {mx : Nat} (hmx : 1 ≤ mx) {src0 : List (List Resp)} (wf : WellFormed src0)
    (as : List Act) : ∃ h firsts retries, Inv mx src0 (run (init src0 mx) as) h firsts retries :=
  inv_run wf as (inv_init mx hmx src0 wf)

/-- A call waits only for results. -/
theorem inv_waiting {mx : Nat} {src0 : List (List Resp)} (wf : WellFormed src0) {s : Sys} {h : Hist}
    {f r : List WorkerTest} (i : Inv mx src0 s h f r) (hs : s.stopped = false)
    (hw : s.fetcher.fetch.2 = .waiting) :
    1 < mx ∧ supplied src0 <+: s.given ∧ s.log.length < s.given.length := by
  have hf := fine_fetch _ h _ (inv_ready wf i hs)
  obtain ⟨-, -, -, hnf⟩ := i.live hs
  unfold Fetcher.fetch at hw
  obtain ⟨h', -, -, g⟩ := hf
  rw [hw] at g
  cases g with
  | wait hsup hl hh ht ha =>
    refine ⟨?_, ?_, ?_⟩
    · have h1 := i.sim.pos
      have h2 := i.sim.le
      omega
    · have := i.rest hnf
      rw [hsup, List.append_nil] at this
      rw [i.given, this]
      exact List.prefix_append _ _
    · have := congrArg List.length i.todo
      simp only [List.length_map, List.length_append] at this
      have : 0 < h.todo.length := List.length_pos_iff.mpr ht
      omega

end Abq.Fetch
