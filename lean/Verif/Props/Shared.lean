import Verif.Proof.Shared
import Verif.Props.EndToEnd
import Verif.Props.RunView

/-!
# The tests of a run are shared until the end (C143)

The registry of runs of the queue composed with any number of runners, at any time after the manifest was handed out, each runner
at any point of its own schedule.
-/

namespace Abq.Props
open Abq.Retries Abq.Fetch Abq.Fetch.Spec Abq.Pipe Abq.RunnerEnd Abq.EndToEnd Abq.MsgBuf Abq.MsgBuf.Spec

/-- One runner: what it was given is what it has begun, and a little more. -/
theorem runner_left (mx : Nat) (hmx : 1 ≤ mx) (n : Nat) (rid : RunId) (evs : List (Event TestSpec)) (r : EndToEnd.Runner)
    (wf : WellFormed [script rid r.entity evs]) (ha : AtWork (r.life mx rid evs) n rid r.entity evs)
    (hs : Small n [script rid r.entity evs]) :
    ∃ left, (supplied [script rid r.entity evs]).map (·.spec) = r.begun mx rid evs ++ left ∧
      left.length ≤ 2 * n - Nat.max 1 (n / 2) := by
  obtain ⟨hpi, hd, hk⟩ := life_kept (n := n) wf r.schedule (RunnerEnd.init [script rid r.entity evs] mx r.batchSize)
    (fun _ => ⟨pi_init mx hmx _ wf r.batchSize, drawn_new r.batchSize,
      ⟨hs, (fun _ h => nomatch h), (fun ⟨_, h, _⟩ => nomatch h)⟩⟩) ha.restarts
  have hlife : (RunnerEnd.init [script rid r.entity evs] mx r.batchSize).run r.schedule = r.life mx rid evs := rfl
  rw [hlife] at hpi hd hk
  unfold EndToEnd.Runner.begun
  obtain ⟨h, fs, rs, i⟩ := hpi.sys
  have hfirst := inv_firsts wf i
  have hrest := i.rest ha.fetches
  have hunread := ha.unread
  have hlink := hpi.link
  have hgiven := given_eq hlink
  have hpre := received_prefix hpi.buf
  generalize (r.life mx rid evs).pipe = p at *
  rw [← hgiven] at hpre
  have hpre : items p.buf.received <+: p.sys.given := (List.prefix_append _ _).trans hpre
  have hg := i.given
  rw [hg] at hpre
  by_cases hl : ∃ w ∈ p.sys.given, w.runNumber ≠ 1
  · have h1 := hk.later hl
    have hne : rs ≠ [] := by
      rintro rfl
      obtain ⟨w, hw, h1⟩ := hl
      rw [hg, List.append_nil] at hw
      exact h1 (hfirst w hw)
    have h2 := i.later hne
    rw [← h2] at h1
    have h3 : fs <+: items p.buf.received := List.prefix_of_prefix_length_le (List.prefix_append _ _) hpre h1
    obtain ⟨t, ht⟩ := h3
    rw [← ht] at hpre
    have htr : t <+: rs := (List.prefix_append_right_inj fs).mp hpre
    refine ⟨[], ?_, Nat.zero_le _⟩
    rw [List.append_nil, ← ht, List.filter_append, ← h2]
    have e1 : fs.filter (·.runNumber == 1) = fs := by
      rw [List.filter_eq_self]; intro w hw; simpa using hfirst w hw
    have e2 : t.filter (·.runNumber == 1) = [] := by
      rw [List.filter_eq_nil_iff]
      intro w hw
      have := (i.numbers w (htr.subset hw)).1
      simp only [beq_iff_eq]
      omega
    rw [e1, e2, List.append_nil]
  · have hall : ∀ w ∈ p.sys.given, w.runNumber = 1 := fun w hw => Classical.byContradiction fun h => hl ⟨w, hw, h⟩
    have hrs : rs = [] := by
      cases rs with
      | nil => rfl
      | cons x xs =>
        have h1 := (i.numbers x List.mem_cons_self).1
        have h2 := hall x (by rw [hg]; simp)
        omega
    rw [hrs, List.append_nil] at hpre hg
    have e1 : (items p.buf.received).filter (·.runNumber == 1) = items p.buf.received := by
      rw [List.filter_eq_self]; intro w hw; simpa using hfirst w (hpre.subset hw)
    rw [e1]
    obtain ⟨t, ht⟩ := hpre
    have hsmall : ∀ f ∈ p.buf.fetched, f.length ≤ n := by
      intro f hf
      rw [hlink] at hf
      obtain ⟨b, hb, rfl⟩ := List.mem_map.mp hf
      rcases hk.bundles b hb with h1 | h1
      · exact h1
      · cases hw : b.work with
        | nil => exact Nat.zero_le _
        | cons w ws =>
          have h2 := h1 w (by rw [hw]; simp)
          have h3 := hall w (by
            simp only [Fetch.Sys.given]
            exact List.mem_flatMap.mpr ⟨b, hb, by rw [hw]; simp⟩)
          omega
    have hlen : fs.length = p.buf.fetched.flatten.length := by rw [← hg, hgiven]
    refine ⟨(t ++ supplied p.sys.fetcher.sources).map (·.spec), ?_, ?_⟩
    · rw [hrest, ← ht]; simp
    · have hb := drawn_bound hd n hsmall
      have hl2 := congrArg List.length ht
      simp only [List.length_append] at hl2
      rw [List.length_map, List.length_append]
      rcases hunread with hu | ⟨hp, hu⟩
      · rw [hu, List.length_nil]
        omega
      · have hm : Nat.max 1 (n / 2) ≤ n ∨ n = 0 := by
          rcases Nat.eq_zero_or_pos n with h0 | h0
          · exact .inr h0
          · exact .inl (Nat.max_le.mpr ⟨h0, by omega⟩)
        rcases drawn_bound_next hd n hsmall hp with h1 | h1 | h1
        · omega
        · omega
        · omega

theorem shared_supplied {acts : List (RunsAct TestSpec)} {rid : RunId} {flat : List (TestSpec × Nat)} {mx n : Nat}
    {runners : List EndToEnd.Runner} (w : HandedOut acts rid flat mx n runners) :
    (runners.flatMap fun r => supplied [script rid r.entity ((Runs.init : Runs TestSpec).run acts).events]).Perm
      ((Spec.firstAttempts flat).map received) := by
  have h1 := C52_all_delivered_partial acts rid flat w.exhausted w.manifest w.written w.answered
  have h2 := delivered_by_runner rid (runners.map (·.entity)) w.distinct _ w.all
  have h3 := (h2.trans h1).map received
  refine List.Perm.trans ?_ h3
  simp only [supplied_script, List.map_flatMap, List.flatMap_map]
  exact .refl _

theorem shared_wf {acts : List (RunsAct TestSpec)} {rid : RunId} {flat : List (TestSpec × Nat)} {mx n : Nat}
    {runners : List EndToEnd.Runner} (w : HandedOut acts rid flat mx n runners) (r : EndToEnd.Runner) (hr : r ∈ runners) :
    WellFormed [script rid r.entity ((Runs.init : Runs TestSpec).run acts).events] := by
  have hp := shared_supplied w
  have hsub : (supplied [script rid r.entity ((Runs.init : Runs TestSpec).run acts).events]).Sublist
      (runners.flatMap fun r => supplied [script rid r.entity ((Runs.init : Runs TestSpec).run acts).events]) := by
    obtain ⟨a, b, rfl⟩ := List.append_of_mem hr
    rw [List.flatMap_append, List.flatMap_cons]
    exact ((List.sublist_append_left _ _).trans (List.sublist_append_right _ _))
  have hid : ((runners.flatMap fun r => supplied [script rid r.entity
      ((Runs.init : Runs TestSpec).run acts).events]).map (·.spec.workId)).Nodup := by
    rw [(hp.map _).nodup_iff]
    have := w.unique
    simpa [Spec.firstAttempts, received, Function.comp_def] using this
  exact
    { some := by simp
      ends := by
        intro src hs
        simp only [List.mem_singleton] at hs
        subst hs
        exact (w.atWork r hr).noMore
      once := (hsub.map _).nodup hid
      first := by
        intro t ht
        have := hp.subset (hsub.subset ht)
        simp only [Spec.firstAttempts, List.map_map, List.mem_map] at this
        obtain ⟨p, hp', rfl⟩ := this
        exact ⟨rfl, w.noFocus p hp'⟩ }

theorem shared_small {acts : List (RunsAct TestSpec)} {rid : RunId} {flat : List (TestSpec × Nat)} {mx n : Nat}
    {runners : List EndToEnd.Runner} (w : HandedOut acts rid flat mx n runners) (e : Entity) :
    Small n [script rid e ((Runs.init : Runs TestSpec).run acts).events] := by
  intro src hs b hb
  simp only [List.mem_singleton] at hs
  subst hs
  unfold script at hb
  rcases List.mem_append.mp hb with hb | hb
  · obtain ⟨ev, hev, he⟩ := List.mem_filterMap.mp hb
    cases ev with
    | delivered r' e' items eow =>
      simp only [answerTo] at he
      split at he
      · next h =>
        obtain ⟨rfl, rfl⟩ := h
        simp only [Option.some.injEq, Fetch.Resp.bundle.injEq] at he
        rw [← he]
        simpa using w.size _ _ _ hev
      · cases he
    | _ => cases he
  · split at hb
    · cases hb
    · simp at hb

/-- **C143.** Once the queue has handed out all tests, never more than `n` at a time, the tests that nobody has begun are at most
`2 * n - max 1 (n / 2)` for each runner. Each test of the manifest was begun by one runner or is left, and none is in both. -/
theorem C143_little_left (acts : List (RunsAct TestSpec)) (rid : RunId) (flat : List (TestSpec × Nat)) (mx n : Nat)
    (hmx : 1 ≤ mx) (runners : List EndToEnd.Runner) (w : HandedOut acts rid flat mx n runners) :
    ∃ left, ((runners.flatMap fun r => r.begun mx rid ((Runs.init : Runs TestSpec).run acts).events) ++ left).Perm
        (flat.map (·.1)) ∧
      left.length ≤ runners.length * (2 * n - Nat.max 1 (n / 2)) := by
  have hp := (shared_supplied w).map (·.spec)
  have hflat : ((Spec.firstAttempts flat).map received).map (·.spec) = flat.map (·.1) := by
    simp [Spec.firstAttempts, received, Function.comp_def]
  rw [hflat, List.map_flatMap] at hp
  have each := fun r (hr : r ∈ runners) => runner_left mx hmx n rid _ r (shared_wf w r hr) (w.atWork r hr)
    (shared_small w r.entity)
  clear hflat w
  suffices h : ∃ left, ((runners.flatMap fun r => r.begun mx rid ((Runs.init : Runs TestSpec).run acts).events) ++ left).Perm
      (runners.flatMap fun r => (supplied [script rid r.entity ((Runs.init : Runs TestSpec).run acts).events]).map (·.spec)) ∧
      left.length ≤ runners.length * (2 * n - Nat.max 1 (n / 2)) by
    obtain ⟨left, h1, h2⟩ := h
    exact ⟨left, h1.trans hp, h2⟩
  clear hp
  revert each
  generalize ((Runs.init : Runs TestSpec).run acts).events = evs
  intro each
  induction runners with
  | nil => exact ⟨[], .refl _, Nat.zero_le _⟩
  | cons r rs ih =>
    obtain ⟨left, h1, h2⟩ := ih fun r' h => each r' (List.mem_cons_of_mem _ h)
    obtain ⟨l, h3, h4⟩ := each r List.mem_cons_self
    refine ⟨l ++ left, ?_, ?_⟩
    · rw [List.flatMap_cons, List.flatMap_cons, h3]
      simp only [List.append_assoc]
      refine List.Perm.append_left _ ?_
      refine List.Perm.trans ?_ (List.Perm.append_left l h1)
      rw [← List.append_assoc, ← List.append_assoc]
      exact List.Perm.append_right _ List.perm_append_comm
    · rw [List.length_append, List.length_cons, Nat.add_mul, Nat.one_mul]
      omega

/-! ### A run of which all tests were handed out

The run of `e2e_whole`, when runner 1 has begun its test and runner 2 has its test in its buffer. -/

def sharedRunners : List EndToEnd.Runner :=
  [⟨e2eWorker 1, 4, [.pipe .fetch, .pipe .produce, .pipe .produce, .pipe .consume, .pipe .consume, .pipe .consume]⟩,
   ⟨e2eWorker 2, 4, [.pipe .fetch, .pipe .produce, .pipe .produce, .pipe .consume]⟩]

set_option maxRecDepth 20000 in
theorem shared_handedOut : HandedOut e2eQueue "run" e2eTests 2 1 sharedRunners where
  exhausted := by decide
  manifest := by decide
  written := by decide
  answered := by decide
  size := by
    have h : ∀ ev ∈ e2eEvents, (match ev with
      | .delivered _ _ items _ => decide (items.length ≤ 1)
      | _ => true) = true := by decide
    intro e items eow hm
    have := h _ hm
    simpa using this
  unique := by decide
  noFocus := by decide
  distinct := by decide
  all := by
    have h : ∀ ev ∈ e2eEvents, (match ev with
      | .delivered _ e _ _ => decide (e ∈ sharedRunners.map (·.entity))
      | _ => true) = true := by decide
    intro e items eow hm
    have := h _ hm
    simpa using this
  atWork := by
    have hs : ∀ r ∈ sharedRunners, (r.life 2 "run" e2eEvents).failed = false ∧
        (r.life 2 "run" e2eEvents).pipe.sys.failed = false ∧
        supplied (r.life 2 "run" e2eEvents).pipe.sys.fetcher.sources = [] := by decide
    intro r hr
    obtain ⟨h1, h2, h3⟩ := hs r hr
    refine ⟨h1, h2, .inl h3, ?_⟩
    simp only [sharedRunners, List.mem_cons, List.not_mem_nil, or_false] at hr
    rcases hr with rfl | rfl
    · have : script "run" (e2eWorker 1) e2eEvents = [.bundle ⟨[⟨⟨10, 1, none⟩, 1⟩], false⟩, .bundle ⟨[], true⟩] := by decide
      show Ends (script "run" (e2eWorker 1) e2eEvents)
      rw [this]
      simp [Ends]
    · have : script "run" (e2eWorker 2) e2eEvents = [.bundle ⟨[⟨⟨11, 2, none⟩, 1⟩], true⟩] := by decide
      show Ends (script "run" (e2eWorker 2) e2eEvents)
      rw [this]
      simp [Ends]

set_option maxRecDepth 20000 in
example : (sharedRunners.map fun r => r.begun 2 "run" e2eEvents) = [[⟨10, 1, none⟩], []] := by decide

example := C143_little_left e2eQueue "run" e2eTests 2 1 (by decide) sharedRunners shared_handedOut

/-! ### How many tests are handed out at a time -/

/-- What is on its way to a worker, or was written to it, was taken from the queue for it, or is empty. -/
def SharedTaken (evs : List (Event TestSpec)) (rid : RunId) (e : Entity) (items : List (Abq.WorkerTest TestSpec)) : Prop :=
  items = [] ∨ Event.pulled rid e items ∈ evs

structure SharedSent (σ : Runs TestSpec) : Prop where
  delivered : ∀ rid e items eow, Event.delivered rid e items eow ∈ σ.events → SharedTaken σ.events rid e items
  respond : ∀ rid e items eow pl, Pending.respond rid e items eow pl ∈ σ.pending → SharedTaken σ.events rid e items
  pulled : ∀ rid e items, Pending.pulled rid e items ∈ σ.pending → SharedTaken σ.events rid e items
  markEnd : ∀ rid e items, Pending.markEnd rid e items ∈ σ.pending → SharedTaken σ.events rid e items

/-- An effect whose deliveries and continuations carry only what was taken. -/
structure SharedSentEff (evs : List (Event TestSpec)) (x : Eff TestSpec) : Prop where
  delivered : ∀ rid e items eow, Event.delivered rid e items eow ∈ x.evs → SharedTaken (evs ++ x.evs) rid e items
  respond : ∀ rid e items eow pl, Pending.respond rid e items eow pl ∈ x.next → SharedTaken (evs ++ x.evs) rid e items
  pulled : ∀ rid e items, Pending.pulled rid e items ∈ x.next → SharedTaken (evs ++ x.evs) rid e items
  markEnd : ∀ rid e items, Pending.markEnd rid e items ∈ x.next → SharedTaken (evs ++ x.evs) rid e items

theorem shared_sent_apply {σ : Runs TestSpec} (h : SharedSent σ) (rid : RunId) (x : Eff TestSpec) (hx : SharedSentEff σ.events x) :
    SharedSent (σ.apply rid x) := by
  have hm : ∀ {rid e items}, SharedTaken σ.events rid e items → SharedTaken (σ.events ++ x.evs) rid e items := by
    intro rid e items ht
    exact ht.imp id fun h => List.mem_append.mpr (.inl h)
  refine ⟨?_, ?_, ?_, ?_⟩
  · intro rid e items eow hd
    rcases List.mem_append.mp hd with hd | hd
    · exact hm (h.delivered _ _ _ _ hd)
    · exact hx.delivered _ _ _ _ hd
  · intro rid e items eow pl hd
    rcases List.mem_append.mp hd with hd | hd
    · exact hm (h.respond _ _ _ _ _ hd)
    · exact hx.respond _ _ _ _ _ hd
  · intro rid e items hd
    rcases List.mem_append.mp hd with hd | hd
    · exact hm (h.pulled _ _ _ hd)
    · exact hx.pulled _ _ _ hd
  · intro rid e items hd
    rcases List.mem_append.mp hd with hd | hd
    · exact hm (h.markEnd _ _ _ hd)
    · exact hx.markEnd _ _ _ hd

theorem shared_sent_exec (evs : List (Event TestSpec)) (rid : RunId) (s : RunState TestSpec) (r : Req TestSpec) :
    SharedSentEff evs (Runs.exec rid s r) := by
  cases r with
  | nextWork e =>
    simp only [Runs.exec]
    split <;> constructor <;> simp [SharedTaken] <;> (intros; simp_all)
  | _ => constructor <;> simp [Runs.exec, Runs.subIf] <;> (try split) <;> simp

theorem shared_sent_step {σ : Runs TestSpec} (h : SharedSent σ) (a : RunsAct TestSpec) : SharedSent (σ.step a) := by
  cases a with
  | join p =>
    refine shared_sent_apply h _ _ ?_
    unfold Runs.joinEff
    split <;> constructor <;> simp
  | request rid r =>
    simp only [Runs.step]
    split
    · exact h
    · refine shared_sent_apply h _ _ ?_
      unfold Runs.reqEff
      split
      · constructor <;> simp
      · exact shared_sent_exec ..
  | resume i ans ok =>
    simp only [Runs.step]
    split
    · exact h
    · next p hp =>
      split
      · exact h
      · have hmem : p ∈ σ.pending := List.mem_of_getElem? hp
        refine shared_sent_apply (σ := { σ with pending := σ.pending.eraseIdx i }) ?_ _ _ ?_
        · exact ⟨h.delivered, fun _ _ _ _ _ hd => h.respond _ _ _ _ _ (List.mem_of_mem_eraseIdx hd),
            fun _ _ _ hd => h.pulled _ _ _ (List.mem_of_mem_eraseIdx hd),
            fun _ _ _ hd => h.markEnd _ _ _ (List.mem_of_mem_eraseIdx hd)⟩
        · have hm : ∀ {rid e items} (l : List (Event TestSpec)), SharedTaken σ.events rid e items → SharedTaken (σ.events ++ l) rid e items :=
            fun l ht => ht.imp id fun h => List.mem_append.mpr (.inl h)
          generalize σ.get p.rid = s
          cases p with
          | joinRemote p =>
            simp only [Runs.contEff, Runs.loadRemote, Runs.createFresh]
            repeat' split
            all_goals constructor <;> simp
          | joinRead p =>
            simp only [Runs.contEff]
            split <;> constructor <;> simp
          | pulled rid e items =>
            have ht := h.pulled _ _ _ hmem
            simp only [Runs.contEff]
            split
            · constructor <;> simp
              rintro _ _ _ rfl rfl rfl
              exact ht
            · constructor <;> simp
              rintro _ _ _ _ rfl rfl rfl _
              exact hm _ ht
            · constructor <;> simp
          | markEnd rid e items =>
            have ht := h.markEnd _ _ _ hmem
            simp only [Runs.contEff]
            split
            · constructor <;> simp
            · constructor <;> simp [Runs.subIf]
              rintro _ _ _ _ rfl rfl rfl _
              exact hm _ ht
          | respond rid e items eow plan =>
            have ht := h.respond _ _ _ _ _ hmem
            simp only [Runs.contEff]
            split
            · cases plan <;> constructor <;> simp [Runs.planTasks]
              all_goals
                intro _ _ _
                constructor
                · rintro rfl rfl rfl _
                  exact hm _ ht
                · rintro rfl rfl rfl _
                  exact hm _ ht
            · constructor <;> simp
          | sub _ => constructor <;> simp [Runs.contEff]
          | dumpManifest rid view =>
            simp only [Runs.contEff]
            split <;> constructor <;> simp
          | setPersisted _ => constructor <;> simp [Runs.contEff]
          | dumpState rid doc =>
            simp only [Runs.contEff]
            split <;> constructor <;> simp
          | timer rid last =>
            simp only [Runs.contEff, Runs.timerEff, Runs.rearm]
            repeat' split
            all_goals constructor <;> simp
          | timeoutWrite rid last =>
            simp only [Runs.contEff, Runs.rearm, Runs.subIf]
            repeat' split
            all_goals constructor <;> simp

theorem shared_sent_run (acts : List (RunsAct TestSpec)) : SharedSent ((Runs.init : Runs TestSpec).run acts) := by
  have key : ∀ σ : Runs TestSpec, SharedSent σ → SharedSent (σ.run acts) := by
    induction acts with
    | nil => exact fun σ h => h
    | cons a as ih => exact fun σ h => ih _ (shared_sent_step h a)
  exact key _ ⟨(fun _ _ _ _ h => nomatch h), (fun _ _ _ _ _ h => nomatch h), (fun _ _ _ h => nomatch h), (fun _ _ _ h => nomatch h)⟩

/-- **C143.** In a run that was created to be split by test, no more tests are written to a worker at a time than the creator of the
run asked for, and no more than 100: this is the `n` of `C143_little_left`. -/
theorem C143_by_test (acts : List (RunsAct TestSpec)) (rid : RunId) (p : JoinParams) (d : Bool)
    (hp : .joined p (.fresh true d) ∈ ((Runs.init : Runs TestSpec).run acts).events) (hrid : p.rid = rid)
    (hs : p.strategy = .byTest) (e : Entity) (items : List (Abq.WorkerTest TestSpec)) (eow : Bool)
    (hd : .delivered rid e items eow ∈ ((Runs.init : Runs TestSpec).run acts).events) :
    items.length ≤ min 100 p.hint.val := by
  rcases (shared_sent_run acts).delivered _ _ _ _ hd with rfl | ht
  · exact Nat.zero_le _
  · obtain ⟨a, b, hab⟩ := List.append_of_mem ht
    obtain ⟨q, flat, hq, ⟨d', hd'⟩, -, hitems⟩ := C04_bundles_of_a_run acts rid a b e items hab
    have h1 := C10_at_most_one_generates acts rid
    have h2 : ∀ x y : Event TestSpec, x ∈ ((Runs.init : Runs TestSpec).run acts).events.filter (Spec.asksToGenerate rid) →
        y ∈ ((Runs.init : Runs TestSpec).run acts).events.filter (Spec.asksToGenerate rid) → x = y := by
      intro x y hx hy
      generalize ((Runs.init : Runs TestSpec).run acts).events.filter (Spec.asksToGenerate rid) = l at h1 hx hy
      match l, h1 with
      | [z], _ =>
        simp only [List.mem_singleton] at hx hy
        rw [hx, hy]
    have h3 := h2 (.joined p (.fresh true d)) (.joined q (.fresh true d'))
      (List.mem_filter.mpr ⟨hp, by simp [Spec.asksToGenerate, hrid]⟩)
      (List.mem_filter.mpr ⟨by rw [hab]; exact List.mem_append.mpr (.inl hd'), by simp [Spec.asksToGenerate, hq]⟩)
    have hpq : p = q := by injection h3
    subst hpq
    rw [hitems hs]
    exact List.length_take_le _ _

set_option maxRecDepth 20000 in
/-- The run of the example was created to be split by test, with one test at a time. -/
example : .joined (e2eJoin 1) (.fresh true false) ∈ e2eEvents ∧ (e2eJoin 1).rid = "run" ∧ (e2eJoin 1).strategy = .byTest ∧
    min 100 (e2eJoin 1).hint.val = 1 :=
  ⟨List.mem_of_getElem? (i := 0) rfl, rfl, rfl, rfl⟩

end Abq.Props
