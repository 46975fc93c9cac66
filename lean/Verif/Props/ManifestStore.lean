import Verif.Proof.ManifestStore
import Verif.Proof.ManifestView

/-! # A manifest read back equals the manifest written (C23) -/

namespace Abq.Props
open Abq.ManifestStore Abq.ManifestStore.Spec
open Abq.Results (Bytes LoadOut load store OffloadConfig fileEligible)

variable {V : Type}

/-- C23: however dumps, fetches, offload jobs and failures follow one another, if only one manifest is
dumped for the run then a fetch that is answered is answered with that manifest. -/
theorem C23_fetch_never_wrong_partial (c : Codec V) (noop : Bool) (v : V) (acts : List (ManifestStore.Act V))
    (hd : Dumps v acts) (w : V)
    (h : ManifestStore.Ev.fetched (some w) ∈ (run c { noop, disk := [], remote := none } acts).2) : w = v :=
  (minv_run acts hd _ (minv_init c v noop)).2 w h

/-- C23: after a dump succeeded, with a remote, whatever happened before or since, of two fetches without
failures the second is answered with the manifest. -/
theorem C23_second_fetch_succeeds_partial (c : Codec V) (v : V) (acts : List (ManifestStore.Act V)) (hd : Dumps v acts)
    (hdumped : ManifestStore.Ev.dumped v true ∈ (run c { noop := false, disk := [], remote := none } acts).2) :
    (run c (run c { noop := false, disk := [], remote := none } acts).1
        [.fetch true .ok, .fetch true .ok]).2.getLast? = some (.fetched (some v)) := by
  obtain ⟨hinv, -⟩ := minv_run acts hd _ (minv_init c v false)
  obtain ⟨hrem, -⟩ := remote_after_dump c v acts { noop := false, disk := [], remote := none } rfl
    (.inr hdumped)
  generalize (run c { noop := false, disk := [], remote := none } acts).1 = s at *
  have hr : s.remote = some (c.encode v) := by
    cases h : s.remote with
    | none => exact absurd h hrem
    | some r => rw [hinv.remote r h]
  obtain ⟨j, hj⟩ := hinv.disk
  have hfull : (step c s (.fetch true .ok)).1.disk = c.encode v := by
    simp only [step, fetch, if_true]
    by_cases hlt : j < (c.encode v).length
    · obtain ⟨k, -, hk⟩ := c.prefix_fails v j hlt
      rw [hj, hk]
      simp only [load, hr, if_true]
      split <;> rfl
    · have : s.disk = c.encode v := by rw [hj, List.take_of_length_le (by omega)]
      simp [this, c.roundtrip]
  simp only [run]
  have : (step c (step c s (.fetch true .ok)).1 (.fetch true .ok)).2 = .fetched (some v) := by
    simp [step, fetch] at hfull ⊢
    simp [hfull, c.roundtrip]
  simp [this]

/-- C23: if in addition nothing broke off in the middle, already the first fetch is answered with the
manifest: from the local file, or from the remote after an offload. -/
theorem C23_fetch_succeeds_partial (c : Codec V) (v : V) (acts : List (ManifestStore.Act V)) (hd : Dumps v acts)
    (hcut : ∀ a ∈ acts, NoCut a)
    (hdumped : ManifestStore.Ev.dumped v true ∈ (run c { noop := false, disk := [], remote := none } acts).2) :
    (run c (run c { noop := false, disk := [], remote := none } acts).1 [.fetch true .ok]).2 =
      [.fetched (some v)] := by
  obtain ⟨hinv, -⟩ := minv_run acts hd _ (minv_init c v false)
  obtain ⟨hrem, -⟩ := remote_after_dump c v acts { noop := false, disk := [], remote := none } rfl
    (.inr hdumped)
  have hwhole : ∀ (acts : List (ManifestStore.Act V)) (s : Store), Dumps v acts → (∀ a ∈ acts, NoCut a) → MInv c v s →
      (s.disk = [] ∨ s.disk = c.encode v) →
      ((run c s acts).1.disk = [] ∨ (run c s acts).1.disk = c.encode v) := by
    intro acts
    induction acts with
    | nil => intro s _ _ _ h; exact h
    | cons a as ih =>
      intro s hd hc hm h
      refine ih _ (fun w o e => hd w o (List.mem_cons_of_mem _ e))
        (fun a h => hc a (List.mem_cons_of_mem _ h))
        (minv_step hm a (fun w o e => hd w o (by simp [e]))).1 ?_
      exact whole_step h hm.remote a (hc a (by simp)) (fun w o e => hd w o (by simp [e]))
  have hdisk := hwhole acts { noop := false, disk := [], remote := none } hd hcut (minv_init c v false)
    (.inl rfl)
  generalize (run c { noop := false, disk := [], remote := none } acts).1 = s at *
  have hr : s.remote = some (c.encode v) := by
    cases h : s.remote with
    | none => exact absurd h hrem
    | some r => rw [hinv.remote r h]
  rcases hdisk with h | h
  · obtain ⟨k, hk, hk'⟩ := c.prefix_fails v 0 (encode_pos c v)
    simp only [List.take_zero] at hk'
    have : k = 0 := by omega
    subst this
    simp [run, step, fetch, h, hk', load, hr, c.roundtrip]
  · simp [run, step, fetch, h, c.roundtrip]

/-- C23, if another manifest is dumped for the run id, with a remote and nothing breaking off in the middle: if the file was not
longer than it, then it is fetched from now on; otherwise nothing is fetched any more, neither manifest. -/
theorem C23_another_manifest (c : Codec V) (hc : NoTrailing c) (u v : V) (before later : List (ManifestStore.Act V))
    (hu : Dumps u before) (hb : ∀ a ∈ before, NoCut a) (hl : ∀ a ∈ later, NoCut a ∧ NotDump a) :
    let s := (run c { noop := false, disk := [], remote := none } before).1
    let t := (run c s [.dump v .ok]).1
    (s.disk.length ≤ (c.encode v).length → (run c t (later ++ [.fetch true .ok])).2.getLast? = some (.fetched (some v))) ∧
    ((c.encode v).length < s.disk.length → ∀ w, ManifestStore.Ev.fetched (some w) ∉ (run c t later).2) := by
  intro s t
  have hnoop : s.noop = false := by
    have key : ∀ (as : List (ManifestStore.Act V)) (x : Store), (run c x as).1.noop = x.noop := by
      intro as
      induction as with
      | nil => intro x; rfl
      | cons a as ih =>
        intro x
        show (run c (step c x a).1 as).1.noop = x.noop
        rw [ih]
        cases a with
        | dump w o => cases o <;> rfl
        | offload cfg now acc t => simp only [step, offload]; split <;> rfl
        | fetch b o =>
          simp only [step, fetch]
          repeat' split
          all_goals rfl
    exact key before _
  have hwhole : ∀ (acts : List (ManifestStore.Act V)) (s : Store), Dumps u acts → (∀ a ∈ acts, NoCut a) → MInv c u s →
      (s.disk = [] ∨ s.disk = c.encode u) →
      ((run c s acts).1.disk = [] ∨ (run c s acts).1.disk = c.encode u) := by
    intro acts
    induction acts with
    | nil => intro s _ _ _ h; exact h
    | cons a as ih =>
      intro s hd hn hm h
      exact ih _ (fun w o e => hd w o (List.mem_cons_of_mem _ e)) (fun b hb => hn b (List.mem_cons_of_mem _ hb))
        (minv_step hm a (fun w o e => hd w o (by simp [e]))).1
        (whole_step h hm.remote a (hn a (List.mem_cons_self ..)) (fun w o e => hd w o (by simp [e])))
  have hs : s.disk = [] ∨ s.disk = c.encode u := hwhole before _ hu hb (minv_init c u false) (.inl rfl)
  have ht : Holding (overwrite s.disk (c.encode v)) t := by
    refine ⟨.inr rfl, ?_⟩
    show store s.noop s.remote (overwrite s.disk (c.encode v)) = _
    simp [store, hnoop]
  constructor
  · intro hle
    have he : overwrite s.disk (c.encode v) = c.encode v := by
      rw [overwrite, List.drop_eq_nil_of_le hle, List.append_nil]
    rw [he] at ht
    have h := holding_run (c := c) later hl t ht
    rw [run_append]
    rcases h.disk with hd | hd
    · simp [run, step, fetch, hd, decode_nil c v, load, h.remote, c.roundtrip]
    · simp [run, step, fetch, hd, c.roundtrip]
  · intro hlt
    have hs' : s.disk = c.encode u := by
      rcases hs with h | h
      · rw [h] at hlt; exact absurd hlt (Nat.not_lt_zero _)
      · exact h
    rw [hs'] at hlt ht
    obtain ⟨e, he, hdec⟩ := hc u v hlt
    have hpos := encode_pos c v
    obtain ⟨e', he'⟩ := c.suffix_fails u ((c.encode v).length + (e - (c.encode v).length)) (by omega)
    refine holding_nothing (decode_nil c v) hdec (e' := e') ?_ later hl t ht
    rw [List.drop_append, List.drop_drop, List.drop_eq_nil_of_le he, List.nil_append]
    exact he'

/-- A shorter manifest over a longer one, and a longer over a shorter one, with offload jobs and fetches after it. -/
example :
    let later : List (ManifestStore.Act Nat) := [.fetch true .refused, .offload (some 5) 20 10 true, .fetch true .ok]
    let s (u : Nat) := (run numCodec { noop := false, disk := [], remote := none } [.dump u .ok, .offload (some 5) 20 10 true,
      .fetch true .ok]).1
    (run numCodec (run numCodec (s 2) [.dump 3 .ok]).1 later).2 = [.fetched (some 3), .offloadJob, .fetched (some 3)] ∧
    (run numCodec (run numCodec (s 3) [.dump 2 .ok]).1 later).2 = [.fetched none, .offloadJob, .fetched none] ∧
    (s 3).disk.length = 5 ∧ (numCodec.encode 2).length = 4 := by
  decide

example : NoTrailing numCodec := numCodec_noTrailing

/-- C23, without a remote: if there is no offload job, a fetch after a dump that succeeded is answered with
the manifest. -/
theorem C23_fetch_succeeds_locally_partial (c : Codec V) (v : V) (acts : List (ManifestStore.Act V)) (hd : Dumps v acts)
    (hoff : ∀ a ∈ acts, NotOffload a)
    (hdumped : ManifestStore.Ev.dumped v true ∈ (run c { noop := true, disk := [], remote := none } acts).2) :
    (run c (run c { noop := true, disk := [], remote := none } acts).1 [.fetch true .ok]).2 =
      [.fetched (some v)] := by
  have key : ∀ (acts : List (ManifestStore.Act V)) (s : Store), Dumps v acts → (∀ a ∈ acts, NotOffload a) →
      MInv c v s → s.noop = true → s.remote = none →
      (s.disk = c.encode v ∨ ManifestStore.Ev.dumped v true ∈ (run c s acts).2) →
      (run c s acts).1.disk = c.encode v := by
    intro acts
    induction acts with
    | nil => intro s _ _ _ _ _ h; simpa [run] using h
    | cons a as ih =>
      intro s hd ho hm hn hr h
      have hm' := (minv_step hm a (fun w o e => hd w o (by simp [e]))).1
      have hd' : Dumps v as := fun w o e => hd w o (List.mem_cons_of_mem _ e)
      have ho' : ∀ a ∈ as, NotOffload a := fun a h => ho a (List.mem_cons_of_mem _ h)
      cases a with
      | offload cfg now acc t => exact (ho (.offload cfg now acc t) (by simp)).elim
      | fetch b o =>
        refine ih _ hd' ho' hm' ?_ ?_ ?_
        · simp only [step, fetch]; split
          · split
            · exact hn
            · simp [load, hr, hn]
          · exact hn
        · simp only [step, fetch]; split
          · split
            · exact hr
            · simp [load, hr]
          · exact hr
        · rcases h with h | h
          · left
            cases b <;> simp [step, fetch, h, c.roundtrip]
          · right
            simpa [run, step] using h
      | dump w o =>
        have := hd w o (by simp)
        subst this
        obtain ⟨j, hj⟩ := hm.disk
        have hfull : overwrite s.disk (c.encode w) = c.encode w := by
          have := take_overwrite (c.encode w) j (c.encode w).length
          rw [List.take_length] at this
          rw [overwrite, hj, this, List.take_of_length_le (by omega)]
        refine ih _ hd' ho' hm' ?_ ?_ ?_
        · cases o <;> simp [step, dump, hn]
        · cases o <;> simp [step, dump, hr, store, hn]
        · rcases h with h | h
          · left
            cases o with
            | ok => simp [step, dump, hfull]
            | openFails => simpa [step, dump] using h
            | cut k =>
              have := take_overwrite (c.encode w) (c.encode w).length k
              rw [List.take_length] at this
              simp only [step, dump, overwrite, h]
              rw [this, List.take_of_length_le (by omega)]
            | storeFails => simp [step, dump, hfull]
            | unanswered => simp [step, dump, hfull]
          · cases o with
            | ok => left; simp [step, dump, hfull]
            | openFails => right; simpa [run, step, dump] using h
            | cut k => right; simpa [run, step, dump] using h
            | storeFails => right; simpa [run, step, dump] using h
            | unanswered => left; simp [step, dump, hfull]
  have h := key acts { noop := true, disk := [], remote := none } hd hoff (minv_init c v true) rfl rfl
    (.inr hdumped)
  simp [run, step, fetch, h, c.roundtrip]

/-- C23: the answer to a runner is its share of the manifest fetched, in order. -/
theorem C23_partition_of_fetched {T : Type} (v : ManifestView T) (tag : Tag)
    (hlen : v.items.length = v.assigned.length) :
    partition (some v) tag = some (ownedBy tag v.items v.assigned) :=
  getPartition_spec v tag hlen

/-- A manifest is dumped, offloaded, fetched from the remote, and fetched again locally. -/
example :
    let h : List (ManifestStore.Act Nat) := [.dump 3 .ok, .offload (some 5) 20 10 true, .fetch true .refused,
      .fetch true .ok, .fetch true .refused]
    (run numCodec { noop := false, disk := [], remote := none } h).2 =
      [.dumped 3 true, .offloadJob, .fetched none, .fetched (some 3), .fetched (some 3)] ∧
    (run numCodec { noop := false, disk := [], remote := none } (h.take 2)).1.disk = [] := by
  decide

/-- C23 does not hold in general: (1) a second, shorter manifest dumped for a run id, as after a restart
without run states in the remote, leaves the end of the first one in the file and in the remote;
(2) without a remote, an offload job loses the manifest; (3) after a download that broke off, a fetch
fails although nothing fails any more. -/
theorem C23_full_statement_fails :
    (run numCodec { noop := false, disk := [], remote := none }
        [.dump 3 .ok, .dump 2 .ok, .fetch true .ok, .fetch true .ok]).2 =
      [.dumped 3 true, .dumped 2 true, .fetched none, .fetched none] ∧
    (run numCodec { noop := true, disk := [], remote := none }
        [.dump 3 .ok, .offload (some 5) 20 10 true, .fetch true .ok]).2 =
      [.dumped 3 true, .offloadJob, .fetched none] ∧
    (run numCodec { noop := false, disk := [], remote := none }
        [.dump 3 .ok, .offload (some 5) 20 10 true, .fetch true (.cut 2), .fetch true .ok]).2 =
      [.dumped 3 true, .offloadJob, .fetched none, .fetched none] := by
  decide

end Abq.Props
