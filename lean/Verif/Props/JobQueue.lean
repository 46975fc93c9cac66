import Verif.Proof.JobQueueMisc
import Verif.Spec.JobQueue

/-!
# Handing out the tests of a run: C01 - C08

`Sys.run (Sys.init queue strategy k) acts` is the state of a run whose manifest is `queue`
(tests with their top-level group), served by `k` threads, after the schedule `acts` of
atomic steps. The schedule is any list of steps of any threads: requests for work with any
tag and batch size, retry requests, single atomic operations, cancellations.

The vocabulary (`manifest`, `answered`, `inFlight`, `Quiet`, `handedTo`, `GroupsContiguous`) is in `Spec/JobQueue.lean`.
-/

namespace Abq.Props
open Abq Spec.Queue

variable {T : Type}

/-! ### Helpers -/

theorem between_manifest (queue : List (T × Nat)) (s e : Nat) : between s e (manifest queue) = slice queue s e := by
  simp [between, manifest, slice]

theorem inFlight_quiet {σ : Sys T} (h : Quiet σ) : inFlight σ = [] := by
  unfold inFlight
  have : σ.pcs.filterMap Pc.claim? = [] := by
    rw [List.filterMap_eq_nil_iff]
    intro pc hm
    rw [h pc hm]; rfl
  rw [this]; rfl

theorem claims_items {σ : Sys T} (h : Sys.Inv σ) (l : List (Resp T)) (hl : ∀ r ∈ l, r ∈ σ.resps) :
    (l.filterMap (·.claim)).flatMap (fun c => slice σ.queue c.s c.e) = l.flatMap (·.items) := by
  induction l with
  | nil => rfl
  | cons r rs ih =>
    have ih := ih (fun x hx => hl x (by simp [hx]))
    have hr := h.resp r (hl r (by simp))
    cases hc : r.claim with
    | none =>
      rw [List.filterMap_cons_none hc, List.flatMap_cons, ih, (hr.2 hc).1]
      rfl
    | some c =>
      rw [List.filterMap_cons_some hc, List.flatMap_cons, List.flatMap_cons, ih,
        (hr.1 c hc).2.1]

/-- Everything taken is a prefix of the manifest. -/
theorem taken_perm {σ : Sys T} (h : Sys.Inv σ) :
    (answered σ ++ inFlight σ).Perm ((manifest σ.queue).take (min σ.ptr σ.queue.length)) := by
  have h1 := h.tiled.flatMap_slice σ.queue
  have h2 : slice σ.queue 0 (min σ.ptr σ.queue.length) =
      (manifest σ.queue).take (min σ.ptr σ.queue.length) := by
    rw [slice_eq]; simp [manifest]
  rw [← h2, ← h1]
  have h3 := (h.perm.flatMap_right (fun c => slice σ.queue c.s c.e))
  rw [List.flatMap_append, claims_items h σ.resps (fun _ h => h)] at h3
  unfold inFlight
  simp only [between_manifest]
  exact h3.symm

theorem taken_all {σ : Sys T} (h : Sys.Inv σ) (hp : σ.queue.length ≤ σ.ptr) :
    (answered σ ++ inFlight σ).Perm (manifest σ.queue) := by
  have := taken_perm h
  rwa [List.take_of_length_le (by simp [manifest]; omega)] at this

/-- A small manifest used in the examples: four tests in three groups. -/
def demo : List (String × Nat) := [("a1", 0), ("a2", 0), ("b1", 1), ("c1", 2)]

/-- A schedule of two threads on it: both take their tests before either is answered. -/
def demoActs : List Act :=
  let w (i : Nat) : Tag := .runner ⟨i, 0⟩
  [.call 0 (w 0) 3, .call 1 (w 1) 3] ++
  (List.replicate 12 [Act.tick 1, Act.tick 0]).flatten

/-! ### C01 -/

/-- **C01** What is handed out (answered or on its way) is, with multiplicities, part of the
manifest: `rest` is what remains. -/
theorem C01_handed_out_at_most_once (queue : List (T × Nat)) (strategy : TestStrategy) (k : Nat)
    (acts : List Act) :
    let σ := (Sys.init queue strategy k).run acts
    ∃ rest, (answered σ ++ inFlight σ ++ rest).Perm (manifest queue) := by
  intro σ
  have h := Sys.inv_run queue strategy k acts
  have hq : σ.queue = queue := (Sys.run_const (Sys.init queue strategy k) acts).1
  have := taken_perm h
  rw [show ((Sys.init queue strategy k).run acts) = σ from rfl, hq] at this
  exact ⟨(manifest queue).drop (min σ.ptr queue.length),
    (this.append_right _).trans (by rw [List.take_append_drop])⟩

/-- **C01** If the tests of the manifest are pairwise different, no test is in two answers, nor
twice in one, nor in an answer and in the hands of an unanswered request. -/
theorem C01_no_test_in_two_answers (queue : List (T × Nat)) (strategy : TestStrategy) (k : Nat)
    (acts : List Act) (hnd : (manifest queue).Nodup) :
    let σ := (Sys.init queue strategy k).run acts
    (answered σ ++ inFlight σ).Nodup ∧
    σ.resps.Pairwise (fun r r' => ∀ t ∈ r.items, t ∉ r'.items) := by
  intro σ
  obtain ⟨rest, h⟩ := C01_handed_out_at_most_once queue strategy k acts
  have h1 := (h.nodup_iff.mpr hnd)
  have h2 := (List.nodup_append.mp h1).1
  refine ⟨h2, ?_⟩
  have h3 := (List.nodup_append.mp h2).1
  unfold answered List.Nodup at h3
  rw [List.pairwise_flatMap] at h3
  refine h3.2.imp (fun {a b} hab t ht hb => hab t ht t hb rfl)

example : (manifest demo).Nodup := by decide

/-! ### C02 -/

/-- **C02** Once some request was told end-of-work, and the run was not cancelled, every test
of the manifest has been handed out exactly as often as it occurs in the manifest. -/
theorem C02_nothing_skipped (queue : List (T × Nat)) (strategy : TestStrategy) (k : Nat)
    (acts : List Act) :
    let σ := (Sys.init queue strategy k).run acts
    (σ.phase = .done ∨ (σ.phase ≠ .cancelled ∧ ∃ r ∈ σ.resps, r.eow = true)) →
    (answered σ ++ inFlight σ).Perm (manifest queue) ∧
    (Quiet σ → (answered σ).Perm (manifest queue)) := by
  intro σ hd
  have h : Sys.Inv σ := Sys.inv_run queue strategy k acts
  have hq : σ.queue = queue := (Sys.run_const (Sys.init queue strategy k) acts).1
  have hp : σ.queue.length ≤ σ.ptr := by
    rcases hd with hd | ⟨hc, r, hr, he⟩
    · exact h.doneEnd hd
    · cases hcl : r.claim with
      | none =>
        have := ((h.resp r hr).2 hcl).2.2
        apply h.doneEnd
        cases hph : σ.phase <;> simp_all
      | some c => exact ((h.resp r hr).1 c hcl).2.2.2.1 he
  have := taken_all h hp
  rw [hq] at this
  refine ⟨this, fun hqt => ?_⟩
  rwa [inFlight_quiet hqt, List.append_nil] at this

/-- The demo schedule ends quiet, exhausted and with an end-of-work answer. -/
example : (((Sys.init demo .byTest 2).run demoActs).phase = .done) ∧
    ((Sys.init demo .byTest 2).run demoActs).resps.map (·.items) =
      [["c1"], ["a1", "a2", "b1"]] := by
  decide

/-! ### C03 -/

/-- **C03** Every bundle is a contiguous piece of the manifest. The bundles, taken in the order
`log` in which the requests moved the queue's pointer, concatenate to a prefix of the manifest;
`log` holds exactly the bundles answered and in flight. -/
theorem C03_bundles_in_order (queue : List (T × Nat)) (strategy : TestStrategy) (k : Nat)
    (acts : List Act) :
    let σ := (Sys.init queue strategy k).run acts
    (∀ r ∈ σ.resps, r.items <:+: manifest queue) ∧
    (σ.log.map (fun c => slice queue c.s c.e)).flatten <+: manifest queue ∧
    σ.log.Perm (σ.resps.filterMap (·.claim) ++ σ.pcs.filterMap Pc.claim?) ∧
    (∀ r ∈ σ.resps, r.items = match r.claim with
      | some c => slice queue c.s c.e
      | none => []) := by
  intro σ
  have h : Sys.Inv σ := Sys.inv_run queue strategy k acts
  have hq : σ.queue = queue := (Sys.run_const (Sys.init queue strategy k) acts).1
  have hit : ∀ r ∈ σ.resps, r.items = match r.claim with
      | some c => slice queue c.s c.e
      | none => [] := by
    intro r hr
    cases hc : r.claim with
    | none => exact ((h.resp r hr).2 hc).1
    | some c => rw [← hq]; exact ((h.resp r hr).1 c hc).2.1
  refine ⟨?_, ?_, h.perm, hit⟩
  · intro r hr
    rw [hit r hr]
    split
    · rw [slice_eq]
      exact (List.take_prefix _ _).isInfix.trans (List.drop_suffix _ _).isInfix
    · exact List.nil_infix
  · have h1 := h.tiled.flatMap_slice σ.queue
    rw [hq] at h1
    rw [← List.flatMap_def, h1, slice_eq]
    simp only [List.drop_zero]
    exact List.take_prefix _ _

/-- **C03** Concurrency adds nothing: the requests, in the order `log` in which they moved the
pointer, were given exactly the bundles that the sequential queue gives to the same requests
made one after the other; none of these panics. The order only grows with time, so it
respects the real-time order of the requests. When no request is being processed the owners
recorded for the tests are also those of the sequential queue. -/
theorem C03_linearizable (queue : List (T × Nat)) (strategy : TestStrategy) (k : Nat)
    (acts : List Act) :
    let σ := (Sys.init queue strategy k).run acts
    (∃ q, (JobQueue.new queue strategy).getWorks (σ.log.map fun c => (c.tag, c.n)) =
        some (q, σ.log.map fun c => slice queue c.s c.e) ∧
      (Quiet σ → q.assigned = σ.cells)) ∧
    (∀ acts', σ.log <+: ((Sys.init queue strategy k).run (acts ++ acts')).log) := by
  intro σ
  have h : Sys.LInv σ := Sys.linv_run queue strategy k acts
  have hc : Sys.CInv σ := Sys.cinv_run queue strategy k acts
  have hcon := Sys.run_const (Sys.init queue strategy k) acts
  have hq : σ.queue = queue := hcon.1
  have hs : σ.strategy = strategy := hcon.2.1
  obtain ⟨q, h1, h2⟩ := h.seq
  refine ⟨⟨q, by rw [hq, hs] at h1; exact h1, fun hqt => ?_⟩, ?_⟩
  · have hno : σ.pcs.filterMap Pc.claim? = [] := by
      rw [List.filterMap_eq_nil_iff]
      intro pc hm
      rw [hqt pc hm]; rfl
    apply List.ext_getElem?
    intro j
    by_cases hj : j < σ.queue.length
    · by_cases hjp : j < min σ.ptr σ.queue.length
      · obtain ⟨c, hcm, hc1, hc2⟩ := h.base.tiled.cover (Nat.zero_le j) hjp
        rw [h2.owned c hcm j hc1 hc2]
        have := h.base.perm.mem_iff.mp hcm
        rw [hno, List.append_nil, List.mem_filterMap] at this
        obtain ⟨r, hr, hrc⟩ := this
        rw [hc.respCells r hr c hrc j hc1 hc2]
      · rw [h2.free j (by omega) hj]
        have hjl : j < σ.cells.length := by rw [h.base.cellsLen]; exact hj
        by_cases hx : σ.cells[j]? = some .externalClient
        · exact hx.symm
        · have hg := List.getElem?_eq_getElem hjl
          obtain ⟨c, hcm, _, hc1, hc2⟩ := hc.sound j _ hg (fun he => hx (by rw [hg, he]))
          have := (h.base.tiled.mem hcm).2.2
          omega
    · rw [List.getElem?_eq_none (by rw [h2.len]; omega),
        List.getElem?_eq_none (by rw [h.base.cellsLen]; omega)]
  · intro acts'
    rw [Sys.run_append]
    obtain ⟨l, hl⟩ := (Sys.run_const σ acts').2.2.2.1
    exact ⟨l, hl.symm⟩

/-- In the demo the claims are logged in the order of the calls although thread 1 is answered
first. -/
example : ((Sys.init demo .byTest 2).run demoActs).log.map (fun c => (c.s, c.e)) =
    [(0, 3), (3, 4)] := by decide

/-! ### C04 -/

/-- **C04** With the by-test strategy, if all requests use the batch size of the run, no bundle
is larger than that, the batch size is at most 100 and at most the client's hint, and a bundle
that is smaller comes with the end-of-work mark and ends where the manifest ends. -/
theorem C04_batch_size (queue : List (T × Nat)) (k hint : Nat) (acts : List Act)
    (ha : ∀ tid tag n, Act.call tid tag n ∈ acts → n = clampBatch hint) :
    let σ := (Sys.init queue .byTest k).run acts
    clampBatch hint ≤ 100 ∧ clampBatch hint ≤ hint ∧
    ∀ r ∈ σ.resps, r.items.length ≤ clampBatch hint ∧
      (r.items.length < clampBatch hint → r.eow = true ∧ r.items <:+ manifest queue) := by
  intro σ
  have h : Sys.Inv σ := Sys.inv_run queue .byTest k acts
  have hcon := Sys.run_const (Sys.init queue .byTest k) acts
  have hq : σ.queue = queue := hcon.1
  have hs : σ.strategy = .byTest := hcon.2.1
  refine ⟨by unfold clampBatch; split <;> omega, by unfold clampBatch; split <;> omega, ?_⟩
  intro r hr
  have hn : r.n = clampBatch hint :=
    Sys.asked_run (fun n => n = clampBatch hint) _ acts
      (by intro pc hm; simp [Sys.init] at hm; simp [hm.2, Pc.asked]) (by simp [Sys.init]) ha r hr
  cases hc : r.claim with
  | none =>
    obtain ⟨h1, h2, _⟩ := (h.resp r hr).2 hc
    rw [h1]
    exact ⟨by simp, fun _ => ⟨h2, List.nil_suffix⟩⟩
  | some c =>
    obtain ⟨h1, h2, h3, h4, h5⟩ := (h.resp r hr).1 c hc
    have hm := (h.tiled.mem (Sys.respClaim_mem_log h hr hc)).2
    have hlen : r.items.length = c.e - c.s := by rw [h2, slice_length (by omega)]
    obtain ⟨w1, w2⟩ := h3.1 hs
    rw [hn] at w1 w2
    refine ⟨by omega, fun hlt => ?_⟩
    have hce : c.e = σ.queue.length := by omega
    constructor
    · cases he : r.eow with
      | true => rfl
      | false => have := h5 he; omega
    · rw [h2, slice_eq, hq]
      rw [List.take_of_length_le]
      · exact List.drop_suffix _ _
      · simp; rw [hce, hq]; omega

/-- A hint of 3 is kept, a hint of 1000 becomes 100; the demo run uses the former. -/
example : clampBatch 3 = 3 ∧ clampBatch 1000 = 100 ∧
    ∀ tid tag n, Act.call tid tag n ∈ demoActs → n = clampBatch 3 := by
  refine ⟨rfl, rfl, ?_⟩
  intro tid tag n h
  simp [demoActs, List.replicate] at h
  rcases h with h | h
  · rw [h.2.2]; rfl
  · rw [h.2.2]; rfl

/-! ### C05 -/

/-- **C05** With the by-file strategy the tests of a top-level group are always in the same
bundle. -/
theorem C05_groups_not_split (queue : List (T × Nat)) (k : Nat) (acts : List Act)
    (hnd : (manifest queue).Nodup) (hg : GroupsContiguous queue) :
    let σ := (Sys.init queue .byTopLevelGroup k).run acts
    ∀ r ∈ σ.resps, ∀ t t' g, (t, g) ∈ queue → (t', g) ∈ queue → t ∈ r.items → t' ∈ r.items := by
  intro σ r hr t t' g hm hm' ht
  have h : Sys.Inv σ := Sys.inv_run queue .byTopLevelGroup k acts
  have hcon := Sys.run_const (Sys.init queue .byTopLevelGroup k) acts
  have hq : σ.queue = queue := hcon.1
  have hs : σ.strategy = .byTopLevelGroup := hcon.2.1
  cases hc : r.claim with
  | none => rw [((h.resp r hr).2 hc).1] at ht; simp at ht
  | some c =>
    obtain ⟨h1, h2, h3, h4, h5⟩ := (h.resp r hr).1 c hc
    obtain ⟨b1, b2, _, _⟩ := h3.2 hs
    rw [hq] at b1 b2 h2
    rw [h2] at ht ⊢
    obtain ⟨p, g0, hp1, hp2, hp3⟩ := mem_slice ht
    obtain ⟨i, hi⟩ := List.mem_iff_getElem?.mp hm
    obtain ⟨j, hj⟩ := List.mem_iff_getElem?.mp hm'
    have hpi := pos_unique hnd hp3 hi
    subst hpi
    rw [hp3] at hi
    simp only [Option.some.injEq, Prod.mk.injEq, true_and] at hi
    subst hi
    have hlen : ∀ {x : Nat} {y}, queue[x]? = some y → x < queue.length :=
      fun hx => (List.getElem?_eq_some_iff.mp hx).1
    rcases Nat.lt_or_ge j c.s with hlt | hge
    · -- j before the bundle: c.s would split the group
      exfalso
      have l1 := hlen hp3
      have q1 : queue[c.s - 1]? = some queue[c.s - 1] := List.getElem?_eq_getElem (by omega)
      have q2 : queue[c.s]? = some queue[c.s] := List.getElem?_eq_getElem (by omega)
      have e1 := hg j (c.s - 1) p (by omega) (by omega) _ _ _ hj q1 hp3 rfl
      have e2 := hg j c.s p (by omega) (by omega) _ _ _ hj q2 hp3 rfl
      rcases b1 with b1 | b1 | b1
      · omega
      · omega
      · rw [q1, q2] at b1
        exact b1 (by simp [e1, e2])
    · rcases Nat.lt_or_ge j c.e with hlt | hge'
      · exact slice_mem hge hlt hj
      · exfalso
        have l1 := hlen hj
        have q1 : queue[c.e - 1]? = some queue[c.e - 1] := List.getElem?_eq_getElem (by omega)
        have q2 : queue[c.e]? = some queue[c.e] := List.getElem?_eq_getElem (by omega)
        have e1 := hg p (c.e - 1) j (by omega) (by omega) _ _ _ hp3 q1 hj rfl
        have e2 := hg p c.e j (by omega) (by omega) _ _ _ hp3 q2 hj rfl
        rcases b2 with b2 | b2 | b2
        · omega
        · omega
        · rw [q1, q2] at b2
          exact b2 (by simp [e1, e2])

/-- **C05** A by-file bundle has at least the batch size of tests unless it comes with the
end-of-work mark, and it is the shortest such: cutting it at an earlier group boundary leaves
fewer tests than the batch size. -/
theorem C05_group_bundle_size (queue : List (T × Nat)) (k n : Nat) (acts : List Act)
    (hnd : (manifest queue).Nodup)
    (ha : ∀ tid tag m, Act.call tid tag m ∈ acts → m = n) :
    let σ := (Sys.init queue .byTopLevelGroup k).run acts
    ∀ r ∈ σ.resps, (n ≤ r.items.length ∨ r.eow = true) ∧
      ∀ a t t' b g g', r.items = a ++ t :: t' :: b → (t, g) ∈ queue → (t', g') ∈ queue →
        g ≠ g' → a.length + 1 < n := by
  intro σ r hr
  have h : Sys.Inv σ := Sys.inv_run queue .byTopLevelGroup k acts
  have hcon := Sys.run_const (Sys.init queue .byTopLevelGroup k) acts
  have hq : σ.queue = queue := hcon.1
  have hs : σ.strategy = .byTopLevelGroup := hcon.2.1
  have hn : r.n = n :=
    Sys.asked_run (fun m => m = n) _ acts
      (by intro pc hm; simp [Sys.init] at hm; simp [hm.2, Pc.asked]) (by simp [Sys.init]) ha r hr
  cases hc : r.claim with
  | none =>
    obtain ⟨h1, h2, _⟩ := (h.resp r hr).2 hc
    rw [h1]
    exact ⟨.inr h2, fun a t t' b g g' he => by simp at he⟩
  | some c =>
    obtain ⟨h1, h2, h3, h4, h5⟩ := (h.resp r hr).1 c hc
    have hm := (h.tiled.mem (Sys.respClaim_mem_log h hr hc)).2
    have hlen : r.items.length = c.e - c.s := by rw [h2, slice_length (by omega)]
    obtain ⟨b1, b2, w1, w2⟩ := h3.2 hs
    rw [hn] at w1 w2
    refine ⟨?_, ?_⟩
    · rcases w1 with w1 | w1
      · left; omega
      · right
        cases he : r.eow with
        | true => rfl
        | false => have := h5 he; omega
    · intro a t t' b g g' he hmt hmt' hgg
      have hl2 : a.length + 1 < c.e - c.s := by rw [← hlen, he]; simp
      have i1 : r.items[a.length]? = some t := by rw [he]; simp
      have i2 : r.items[a.length + 1]? = some t' := by rw [he]; simp
      rw [h2, slice_get (by omega), hq] at i1
      rw [h2, slice_get (by omega), hq] at i2
      obtain ⟨i, hi⟩ := List.mem_iff_getElem?.mp hmt
      obtain ⟨j, hj⟩ := List.mem_iff_getElem?.mp hmt'
      have hb : Boundary σ.queue (c.s + a.length + 1) := by
        right; right
        rw [hq]
        cases x1 : queue[c.s + a.length]? with
        | none => simp [x1] at i1
        | some x =>
          cases x2 : queue[c.s + (a.length + 1)]? with
          | none => simp [x2] at i2
          | some y =>
            obtain ⟨xt, xg⟩ := x
            obtain ⟨yt, yg⟩ := y
            simp [x1] at i1
            simp [x2] at i2
            subst i1; subst i2
            have p1 := pos_unique hnd x1 hi
            have p2 := pos_unique hnd x2 hj
            subst p1; subst p2
            rw [x1] at hi; rw [x2] at hj
            simp at hi hj
            rw [show c.s + a.length + 1 - 1 = c.s + a.length by omega, x1]
            simp [hi, hj]
            exact fun e => hgg e
      have := w2 _ (by omega) (by omega) hb
      omega

/-- The demo manifest has contiguous groups; by file with batch size 3 the second group
completes the first bundle. -/
example : (manifest demo).Nodup ∧
    ((Sys.init demo .byTopLevelGroup 2).run demoActs).resps.map (fun r => (r.items, r.eow)) =
      [(["c1"], true), (["a1", "a2", "b1"], true)] := by
  decide

example : GroupsContiguous demo := by
  have key : ∀ i : Fin 4, ∀ j : Fin 4, ∀ k : Fin 4, i.1 ≤ j.1 ∧ j.1 ≤ k.1 ∧
      (demo[i.1]?).map Prod.snd = (demo[k.1]?).map Prod.snd →
      (demo[j.1]?).map Prod.snd = (demo[i.1]?).map Prod.snd := by decide
  intro i j k hij hjk x y z hx hy hz h
  have hk : k < 4 := (List.getElem?_eq_some_iff.mp hz).1
  have := key ⟨i, by omega⟩ ⟨j, by omega⟩ ⟨k, hk⟩ ⟨hij, hjk, by simp [hx, hz, h]⟩
  simpa [hx, hy] using this

/-! ### C06 -/

/-- **C06** End-of-work in an answer of a run that is not cancelled means that every test has
been taken; and an answer without the mark has a test. -/
theorem C06_end_of_work (queue : List (T × Nat)) (strategy : TestStrategy) (k : Nat)
    (acts : List Act) :
    let σ := (Sys.init queue strategy k).run acts
    ∀ r ∈ σ.resps,
      (r.eow = true → σ.phase ≠ .cancelled →
        (answered σ ++ inFlight σ).Perm (manifest queue)) ∧
      (r.eow = false → r.items ≠ []) ∧
      -- the converse: the bundle that ends where the manifest ends carries the mark
      (r.items ≠ [] → r.items <:+ manifest queue → (manifest queue).Nodup → r.eow = true) := by
  intro σ r hr
  have h : Sys.Inv σ := Sys.inv_run queue strategy k acts
  have hq : σ.queue = queue := (Sys.run_const (Sys.init queue strategy k) acts).1
  refine ⟨fun he hc => (C02_nothing_skipped queue strategy k acts (.inr ⟨hc, r, hr, he⟩)).1,
    ?_, ?_⟩
  · intro he
    cases hc : r.claim with
    | none => rw [((h.resp r hr).2 hc).2.1] at he; simp at he
    | some c =>
      obtain ⟨h1, h2, h3, h4, h5⟩ := (h.resp r hr).1 c hc
      have := h5 he
      intro hn
      have := congrArg List.length (h2.symm.trans hn)
      rw [slice_length (by omega)] at this
      simp at this
      omega
  · intro hne hsuf hnd
    cases he : r.eow with
    | true => rfl
    | false =>
      exfalso
      cases hc : r.claim with
      | none => exact hne ((h.resp r hr).2 hc).1
      | some c =>
        obtain ⟨h1, h2, h3, h4, h5⟩ := (h.resp r hr).1 c hc
        obtain ⟨h6, h7⟩ := h5 he
        rw [hq] at h2 h7
        -- the last test of the manifest would be in the bundle
        obtain ⟨pre, hpre⟩ := hsuf
        have hlen : r.items.length = c.e - c.s := by rw [h2, slice_length (by omega)]
        have hml : (manifest queue).length = queue.length := by simp [manifest]
        have hpl : pre.length + r.items.length = queue.length := by
          rw [← hml, ← hpre]; simp
        have hlast : r.items[r.items.length - 1]? = (manifest queue)[queue.length - 1]? := by
          rw [← hpre, List.getElem?_append_right (by omega)]
          congr 1; omega
        rw [h2, slice_get (by rw [slice_length (by omega)]; omega), ← h2, hlen] at hlast
        have hx : (manifest queue)[c.s + (c.e - c.s - 1)]? = (manifest queue)[queue.length - 1]? := by
          rw [← hlast]; simp [manifest]
        have := (List.getElem?_inj (by rw [hml]; omega) hnd).mp hx
        omega

example : ((Sys.init demo .byTest 2).run demoActs).resps.map (·.eow) = [true, true] ∧
    ((Sys.init demo .byTest 2).run demoActs).phase ≠ .cancelled := by decide

/-! ### C07, C08 -/

theorem handedTo_iff {σ : Sys T} (h : Sys.Inv σ) (tag : Tag) (t : T) :
    handedTo σ tag t ↔ ∃ c ∈ σ.log, c.tag = tag ∧ t ∈ slice σ.queue c.s c.e := by
  unfold handedTo
  simp only [between_manifest]
  constructor
  · rintro (⟨r, hr, rfl, ht⟩ | ⟨c, hc, rfl, ht⟩)
    · cases hc : r.claim with
      | none => rw [((h.resp r hr).2 hc).1] at ht; simp at ht
      | some c =>
        obtain ⟨h1, h2, _⟩ := (h.resp r hr).1 c hc
        exact ⟨c, Sys.respClaim_mem_log h hr hc, h1.symm, by rw [← h2]; exact ht⟩
    · exact ⟨c, h.perm.mem_iff.mpr (List.mem_append_right _ hc), rfl, ht⟩
  · rintro ⟨c, hc, rfl, ht⟩
    rcases List.mem_append.mp (h.perm.mem_iff.mp hc) with hc | hc
    · obtain ⟨r, hr, hrc⟩ := List.mem_filterMap.mp hc
      obtain ⟨h1, h2, _⟩ := (h.resp r hr).1 c hrc
      exact .inl ⟨r, hr, h1, by rw [h2]; exact ht⟩
    · exact .inr ⟨c, hc, rfl, ht⟩

/-- **C07** A retry request that arrives while tests are still being handed out, possibly at the
same time as other requests, is answered with tests of the manifest in manifest order; each of
them was handed to the requesting runner, and every test answered to that runner before the
request began is among them. (`p.before` is the number of answers given before.) -/
theorem C07_retry_while_serving (queue : List (T × Nat)) (strategy : TestStrategy) (k : Nat)
    (acts : List Act) :
    let σ := (Sys.init queue strategy k).run acts
    ∀ p ∈ σ.parts, p.tag ≠ .externalClient →
      p.items.Sublist (manifest queue) ∧
      (∀ t ∈ p.items, handedTo σ p.tag t) ∧
      (∀ r ∈ σ.resps.take p.before, r.tag = p.tag → ∀ t ∈ r.items, t ∈ p.items) := by
  intro σ p hp htag
  have h : Sys.CInv σ := Sys.cinv_run queue strategy k acts
  have hq : σ.queue = queue := (Sys.run_const (Sys.init queue strategy k) acts).1
  obtain ⟨⟨p1, p2, p3, p4, p5⟩, p6⟩ := h.parts p hp
  rw [p6]
  have hcl := h.base.cellsLen
  refine ⟨?_, ?_, ?_⟩
  · -- increasing indices give a sublist
    have key : ∀ (l : List Nat) (m : List T) (off : Nat), l.Pairwise (· < ·) →
        (∀ j ∈ l, off ≤ j) → (l.filterMap (fun i => m[i - off]?)).Sublist m := by
      intro l m
      induction m generalizing l with
      | nil =>
        intro off _ _
        have : l.filterMap (fun i => ([] : List T)[i - off]?) = [] := by
          rw [List.filterMap_eq_nil_iff]; simp
        rw [this]; exact List.nil_sublist _
      | cons x xs ih =>
        intro off hs hb
        have aux : ∀ l : List Nat, (∀ j ∈ l, off + 1 ≤ j) →
            l.filterMap (fun i => (x :: xs)[i - off]?) =
            l.filterMap (fun i => xs[i - (off + 1)]?) := by
          intro l hl
          induction l with
          | nil => rfl
          | cons j js ih' =>
            have hj := hl j (by simp)
            rw [List.filterMap_cons, List.filterMap_cons, ih' (fun i hi => hl i (by simp [hi])),
              show j - off = (j - (off + 1)) + 1 by omega]
            rfl
        cases l with
        | nil => simp
        | cons j js =>
          rw [List.pairwise_cons] at hs
          by_cases hj : j = off
          · subst hj
            rw [List.filterMap_cons_some (b := x) (by simp)]
            rw [aux js (fun i hi => hs.1 i hi)]
            exact (ih js (j + 1) hs.2 (fun i hi => hs.1 i hi)).cons_cons x
          · have hjo := hb j (by simp)
            have hall : ∀ i ∈ j :: js, off + 1 ≤ i := by
              intro i hi
              rcases List.mem_cons.mp hi with rfl | hi
              · omega
              · have := hs.1 i hi; omega
            rw [aux _ hall]
            exact (ih (j :: js) (off + 1) (List.pairwise_cons.mpr hs) hall).cons x
    have := key p.idxs (manifest queue) 0 p2 (fun _ _ => Nat.zero_le _)
    simp only [Nat.sub_zero] at this
    rw [hq]
    simpa [manifest] using this
  · intro t ht
    obtain ⟨j, hj, hjt⟩ := List.mem_filterMap.mp ht
    obtain ⟨c, hc, hct, hc1, hc2⟩ := h.sound j _ (p4 htag j hj) htag
    rw [handedTo_iff h.base]
    refine ⟨c, hc, hct, ?_⟩
    cases hx : σ.queue[j]? with
    | none => simp [hx] at hjt
    | some x =>
      simp [hx] at hjt
      exact slice_mem (g := x.2) hc1 hc2 (by rw [hx, ← hjt])
  · intro r hr hrt t ht
    have hrm := List.mem_of_mem_take hr
    cases hc : r.claim with
    | none => rw [((h.base.resp r hrm).2 hc).1] at ht; simp at ht
    | some c =>
      obtain ⟨h1, h2, _⟩ := (h.base.resp r hrm).1 c hc
      rw [h2] at ht
      obtain ⟨j, g, hj1, hj2, hj3⟩ := mem_slice ht
      have hjl : j < σ.cells.length := by
        rw [hcl]; exact (List.getElem?_eq_some_iff.mp hj3).1
      exact List.mem_filterMap.mpr ⟨j, p5 r hr hrt c hc j hj1 hj2 hjl, by rw [hj3]; rfl⟩

/-- **C07, C08** After the manifest was exhausted, the view handed to persistence, filtered for
a runner by the swapping loop, is exactly the tests handed to that runner, in manifest order;
the loop does not panic. Tests never handed out would belong to nobody. -/
theorem C07_retry_after_exhaustion (queue : List (T × Nat)) (strategy : TestStrategy) (k : Nat)
    (acts : List Act) (tag : Tag) (htag : tag ≠ .externalClient) :
    let σ := (Sys.init queue strategy k).run acts
    σ.phase = .done →
    ∃ v, σ.view = some v ∧
      ∃ part, (ManifestView.mk v.1 v.2).getPartitionForEntity tag = some part ∧
        part.Sublist (manifest queue) ∧ ∀ t, t ∈ part ↔ handedTo σ tag t := by
  intro σ hd
  have h : Sys.CInv σ := Sys.cinv_run queue strategy k acts
  have hq : σ.queue = queue := (Sys.run_const (Sys.init queue strategy k) acts).1
  have hcl := h.base.cellsLen
  refine ⟨_, h.view hd, ?_⟩
  have hlen : (σ.queue.map Prod.fst).length = σ.cells.length := by simp [hcl]
  refine ⟨_, getPartition_spec ⟨σ.queue.map Prod.fst, σ.cells⟩ tag hlen, ?_, ?_⟩
  · unfold ownedBy
    have h1 : ((σ.queue.map Prod.fst).zip σ.cells).map Prod.fst = manifest queue := by
      rw [List.map_fst_zip (by omega), hq]; rfl
    rw [← h1]
    exact List.Sublist.map _ List.filter_sublist
  · intro t
    rw [handedTo_iff h.base]
    constructor
    · intro ht
      obtain ⟨p, hp, rfl⟩ := List.mem_map.mp ht
      obtain ⟨hp1, hp2⟩ := List.mem_filter.mp hp
      obtain ⟨j, hj⟩ := List.mem_iff_getElem?.mp hp1
      rw [List.getElem?_zip_eq_some] at hj
      obtain ⟨hj1, hj2⟩ := hj
      have hpt : p.2 = tag := by simpa using hp2
      obtain ⟨c, hc, hct, hc1, hc2⟩ := h.sound j _ hj2 (by rw [hpt]; exact htag)
      refine ⟨c, hc, by rw [hct, hpt], ?_⟩
      cases hx : σ.queue[j]? with
      | none => simp [hx] at hj1
      | some x =>
        simp [hx] at hj1
        exact slice_mem (g := x.2) hc1 hc2 (by rw [hx, ← hj1])
    · rintro ⟨c, hc, rfl, ht⟩
      obtain ⟨j, g, hj1, hj2, hj3⟩ := mem_slice ht
      have hfree := h.free (by rw [hd]; simp)
      have hass : σ.cells[j]? = some c.tag := by
        rcases List.mem_append.mp (h.base.perm.mem_iff.mp hc) with hc' | hc'
        · obtain ⟨r, hr, hrc⟩ := List.mem_filterMap.mp hc'
          exact h.respCells r hr c hrc j hj1 hj2
        · obtain ⟨pc, hpc, hpcc⟩ := List.mem_filterMap.mp hc'
          have hh := hfree pc hpc
          have hcells := h.pcCells pc hpc
          cases pc with
          | wantMark n c' =>
            simp only [Pc.claim?, Option.some.injEq] at hpcc
            subst hpcc
            exact hcells j hj1 hj2
          | _ => simp_all [Pc.holdsRead, Pc.claim?]
      refine List.mem_map.mpr ⟨(t, c.tag), List.mem_filter.mpr ⟨?_, by simp⟩, rfl⟩
      apply List.mem_iff_getElem?.mpr
      refine ⟨j, ?_⟩
      rw [List.getElem?_zip_eq_some]
      exact ⟨by simp [hj3], hass⟩

example : (Tag.runner ⟨0, 0⟩ ≠ .externalClient) ∧
    ((Sys.init demo .byTest 2).run demoActs).phase = .done ∧
    (((Sys.init demo .byTest 2).run demoActs).view.map fun v =>
      (ManifestView.mk v.1 v.2).getPartitionForEntity (.runner ⟨1, 0⟩)) = some (some ["c1"]) := by
  decide

/-- A retry request of runner 0 while runner 1 is still being served. -/
example : ((Sys.init demo .byTest 2).run
    ([.call 0 (.runner ⟨0, 0⟩) 1, .tick 0, .tick 0, .tick 0, .retry 0 (.runner ⟨0, 0⟩),
      .call 1 (.runner ⟨1, 0⟩) 1] ++ List.replicate 6 (.tick 0))).parts.map
      (fun p => (p.items, p.before)) = [(["a1"], 1)] := by decide

/-- **C08** For every view of a manifest, the swapping loop returns exactly what the live queue
returns for the same tests and owners: the tests of the tag, in manifest order. -/
theorem C08_persisted_partition_eq_live (q : JobQueue T) (tag : Tag)
    (h : q.queue.length = q.assigned.length) :
    q.manifestView.getPartitionForEntity tag = some (q.getPartitionForEntity tag) := by
  rw [getPartition_spec _ _ (by simpa [JobQueue.manifestView, JobQueue.intoManifestView] using h)]
  simp only [JobQueue.manifestView, JobQueue.intoManifestView, ownedBy,
    JobQueue.getPartitionForEntity, Option.some.injEq]
  rw [List.zip_map_left, List.filter_map, List.map_map]
  rfl

/-- **C08** Relation to the definition of "the tests of that tag": test number `i` is in the
result iff its owner is the tag, and the order is that of the manifest. -/
theorem C08_partition_exact (q : JobQueue T) (tag : Tag) :
    q.getPartitionForEntity tag =
      (List.range q.queue.length).filterMap (fun i =>
        match q.queue[i]?, q.assigned[i]? with
        | some x, some t => if t = tag then some x.1 else none
        | _, _ => none) := by
  unfold JobQueue.getPartitionForEntity
  have key : ∀ (l : List (T × Nat)) (tags : List Tag),
      ((l.zip tags).filter (fun p => p.2 == tag)).map (fun p => p.1.1) =
      (List.range l.length).filterMap (fun i =>
        match l[i]?, tags[i]? with
        | some x, some t => if t = tag then some x.1 else none
        | _, _ => none) := by
    intro l
    induction l with
    | nil => intro tags; rfl
    | cons x xs ih =>
      intro tags
      cases tags with
      | nil =>
        simp only [List.zip_nil_right, List.filter_nil, List.map_nil]
        symm
        rw [List.filterMap_eq_nil_iff]
        intro i _
        cases (x :: xs)[i]? <;> rfl
      | cons t ts =>
        rw [List.length_cons, List.range_succ_eq_map, List.filterMap_cons, List.filterMap_map]
        have h2 := ih ts
        have h3 : ((fun i => match (x :: xs)[i]?, (t :: ts)[i]? with
            | some x, some t => if t = tag then some x.1 else none
            | _, _ => none) ∘ Nat.succ) = (fun i => match xs[i]?, ts[i]? with
            | some x, some t => if t = tag then some x.1 else none
            | _, _ => none) := by
          funext i; rfl
        rw [h3, ← h2]
        by_cases ht : t = tag
        · simp [ht]
        · simp [ht]
  exact key q.queue q.assigned

example : (⟨demo, [.runner ⟨0, 0⟩, .runner ⟨1, 0⟩, .runner ⟨0, 0⟩, .externalClient], 3, .byTest⟩ :
    JobQueue String).getPartitionForEntity (.runner ⟨0, 0⟩) = ["a1", "b1"] := by decide

/-! ### Serving does not panic or overflow -/

/-- No request panics on an out-of-range slice, whatever the schedule. -/
theorem serving_never_panics (queue : List (T × Nat)) (strategy : TestStrategy) (k : Nat)
    (acts : List Act) :
    ∀ pc ∈ ((Sys.init queue strategy k).run acts).pcs, ¬ (pc matches .panicked) := by
  intro pc hm hp
  have := (Sys.inv_run queue strategy k acts).pcs pc hm
  cases pc <;> simp_all [Sys.PcOk]

/-- The pointer is never more than one batch per thread past the end, so with batch sizes of at
most `B` the `usize` does not overflow while `len + k * B` fits in it. -/
theorem pointer_bounded (queue : List (T × Nat)) (strategy : TestStrategy) (k B : Nat)
    (acts : List Act) (ha : ∀ tid tag n, Act.call tid tag n ∈ acts → n ≤ B) :
    ((Sys.init queue strategy k).run acts).ptr ≤ queue.length + k * B := by
  have hcon := Sys.run_const (Sys.init queue strategy k) acts
  have h := Sys.pinv_run B queue strategy k acts (fun a hm => by
    cases a with
    | call tid tag n => exact ha tid tag n hm
    | _ => trivial)
  have hb := h.bound
  have hs : ∀ (l : List (Pc T)), (∀ pc ∈ l, pc.over ≤ B) → (l.map Pc.over).sum ≤ l.length * B := by
    intro l
    induction l with
    | nil => simp
    | cons x xs ih =>
      intro hl
      have h1 := hl x (by simp)
      have h2 := ih (fun y hy => hl y (by simp [hy]))
      simp only [List.map_cons, List.sum_cons, List.length_cons, Nat.succ_mul]
      omega
  have := hs _ h.size
  rw [hcon.1] at hb
  rw [hcon.2.2.1] at this
  simp only [Sys.init, List.length_replicate] at this hb ⊢
  omega

/-- The over-advance really happens: both threads add before either clamps. -/
example : ((Sys.init demo .byTest 2).run [.call 0 .localClient 3, .call 1 .localClient 3]).ptr = 6 := by
  decide

end Abq.Props
