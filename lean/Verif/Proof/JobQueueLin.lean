import Verif.Proof.JobQueueCells
import Verif.Spec.JobQueue

/-!
# The concurrent job queue behaves like the sequential one, in the order of the claims
-/

namespace Abq

theorem JobQueue.getWorks_snoc {T : Type} {q q' q'' : JobQueue T} {l : List (Tag × Nat)}
    {out : List (List T)} {tag : Tag} {n : Nat} {items : List T}
    (h : q.getWorks l = some (q', out)) (h' : q'.getWork tag n = some (q'', items)) :
    q.getWorks (l ++ [(tag, n)]) = some (q'', out ++ [items]) := by
  induction l generalizing q out with
  | nil =>
    simp only [getWorks, Option.some.injEq, Prod.mk.injEq] at h
    obtain ⟨rfl, rfl⟩ := h
    simp [getWorks, h']
  | cons x xs ih =>
    obtain ⟨t, m⟩ := x
    simp only [getWorks] at h
    split at h
    · simp at h
    · rename_i q1 i1 h1
      split at h
      · simp at h
      · rename_i q2 more h2
        simp only [Option.some.injEq, Prod.mk.injEq] at h
        obtain ⟨rfl, rfl⟩ := h
        simp [getWorks, h1, ih h2]

theorem assignCells_get {cells : List Tag} {tag : Tag} {s e j : Nat} (hj : j < cells.length) :
    (JobQueue.assignCells cells tag s e)[j]? =
      if s ≤ j ∧ j < e then some tag else cells[j]? := by
  unfold JobQueue.assignCells
  rw [List.getElem?_mapIdx]
  rw [List.getElem?_eq_getElem hj]
  simp only [Option.map_some]
  split <;> rfl

theorem assignCells_length {cells : List Tag} {tag : Tag} {s e : Nat} :
    (JobQueue.assignCells cells tag s e).length = cells.length := by
  simp [JobQueue.assignCells]

namespace Sys
variable {T : Type}

/-- `q` is what the sequential queue looks like after the claims made so far. -/
structure Seq (σ : Sys T) (q : JobQueue T) : Prop where
  queue : q.queue = σ.queue
  strategy : q.strategy = σ.strategy
  ptr : q.ptr = min σ.ptr σ.queue.length
  len : q.assigned.length = σ.queue.length
  owned : ∀ c ∈ σ.log, ∀ j, c.s ≤ j → j < c.e → q.assigned[j]? = some c.tag
  free : ∀ j, min σ.ptr σ.queue.length ≤ j → j < σ.queue.length →
    q.assigned[j]? = some .externalClient

structure LInv (σ : Sys T) : Prop where
  base : Inv σ
  seq : ∃ q, (JobQueue.new σ.queue σ.strategy).getWorks (σ.log.map fun c => (c.tag, c.n)) =
      some (q, σ.log.map fun c => slice σ.queue c.s c.e) ∧ Seq σ q

theorem linv_init (queue : List (T × Nat)) (strategy : TestStrategy) (k : Nat) :
    LInv (init queue strategy k) := by
  refine ⟨inv_init _ _ _, _, rfl, ⟨rfl, rfl, ?_, ?_, ?_, ?_⟩⟩
  · simp [init, JobQueue.new]
  · simp [init, JobQueue.new]
  · simp [init]
  · intro j _ h
    simp [init] at h
    simp [JobQueue.new, init, h]

/-- Steps without a new claim. -/
theorem linv_same {σ τ : Sys T} (h : LInv σ) (hb : Inv τ) (hq : τ.queue = σ.queue)
    (hs : τ.strategy = σ.strategy) (hl : τ.log = σ.log)
    (hp : min τ.ptr σ.queue.length = min σ.ptr σ.queue.length) : LInv τ := by
  obtain ⟨q, h1, h2⟩ := h.seq
  refine ⟨hb, q, by rw [hq, hs, hl]; exact h1, ?_⟩
  obtain ⟨a, b, c, d, e, f⟩ := h2
  constructor
  · rw [hq]; exact a
  · rw [hs]; exact b
  · rw [hq, hp]; exact c
  · rw [hq]; exact d
  · rw [hl]; exact e
  · rw [hq, hp]; exact f

/-- Steps with a new claim. -/
theorem linv_claim {σ τ : Sys T} {c : Claim} {np : Nat} (h : LInv σ) (hb : Inv τ)
    (hq : τ.queue = σ.queue)
    (hs : τ.strategy = σ.strategy) (hl : τ.log = σ.log ++ [c])
    (cs : c.s = min σ.ptr σ.queue.length) (ce : c.e = min τ.ptr σ.queue.length)
    (hse : c.s ≤ c.e) (hnp : np = c.e)
    (hw : ∀ q, Seq σ q → q.getBounds c.n = ((c.s, c.e), np)) :
    LInv τ := by
  obtain ⟨q, h1, h2⟩ := h.seq
  have hw := hw q h2
  have hg : q.getWork c.tag c.n = some ({ q with
      ptr := np, assigned := JobQueue.assignCells q.assigned c.tag c.s c.e },
      slice q.queue c.s c.e) := by
    simp only [JobQueue.getWork]
    rw [hw]
    rw [if_pos]
    rw [h2.len, h2.queue]
    refine ⟨hse, ?_, ?_⟩ <;> (show c.e ≤ _; omega)
  refine ⟨hb, { q with
      ptr := np, assigned := JobQueue.assignCells q.assigned c.tag c.s c.e }, ?_, ?_⟩
  · rw [hq, hs, hl]
    rw [List.map_append, List.map_append]
    have := JobQueue.getWorks_snoc h1 hg
    rw [h2.queue] at this ⊢
    exact this
  · constructor
    · rw [hq]; exact h2.queue
    · rw [hs]; exact h2.strategy
    · rw [hq]; show np = _; omega
    · rw [hq]; show (JobQueue.assignCells _ _ _ _).length = _; rw [assignCells_length]; exact h2.len
    · intro d hd j h3 h4
      have hjl : j < q.assigned.length := by
        rw [h2.len]
        have := (hb.tiled.mem hd).2
        rw [hq] at this
        omega
      show (JobQueue.assignCells q.assigned c.tag c.s c.e)[j]? = _
      rw [assignCells_get hjl]
      have hcm : c ∈ τ.log := by rw [hl]; simp
      split
      · rename_i hh
        rw [hb.tiled.unique hcm hd hh.1 hh.2 h3 h4]
      · rename_i hh
        rw [hl] at hd
        rcases List.mem_append.mp hd with hd | hd
        · exact h2.owned d hd j h3 h4
        · simp at hd; subst hd; omega
    · intro j h3 h4
      rw [hq] at h3 h4
      show (JobQueue.assignCells q.assigned c.tag c.s c.e)[j]? = _
      rw [assignCells_get (by rw [h2.len]; exact h4), if_neg (by omega)]
      exact h2.free j (by omega) h4

theorem linv_step {σ τ : Sys T} {a : Act} (h : LInv σ) (hs : Step σ a τ) : LInv τ := by
  have hb := inv_step h.base hs
  have hget : ∀ {tid pc}, σ.pcs[tid]? = some pc → pc ∈ σ.pcs :=
    fun hh => List.mem_of_getElem? hh
  cases hs with
  | claimTest tid tag n hi hn hp hs b hb' c hc pc hpc =>
    obtain ⟨b1, b2, b3⟩ := byTestBounds_spec σ.queue.length n σ.ptr hn
    rw [← hb'] at b1 b2 b3
    have cs : c.s = min σ.ptr σ.queue.length := by rw [hc]; exact b1
    have ce : c.e = min (σ.ptr + n) σ.queue.length := by rw [hc]; exact b2
    have cn : c.n = n := by rw [hc]
    refine linv_claim h hb rfl rfl rfl cs ce (by omega) rfl (fun q hq => ?_)
    simp only [JobQueue.getBounds]
    rw [hq.strategy, hs, cn]
    simp only [JobQueue.getBoundsByTest]
    rw [hq.queue, hq.ptr]
    obtain ⟨d1, d2, d3⟩ := byTestBounds_spec σ.queue.length n (min σ.ptr σ.queue.length) hn
    ext
    · simp only [d1]; omega
    · simp only [d2]; omega
    · simp only
      split
      · rename_i hh; have := d3.mp hh; omega
      · rename_i hh
        have : ¬ (min σ.ptr σ.queue.length + n > σ.queue.length) := fun x => hh (d3.mpr x)
        omega
  | casLoad tid tag n hi hn hp hs => exact linv_same h hb rfl rfl rfl rfl
  | answerEmpty _ tag n hp => exact linv_same h hb rfl rfl rfl rfl
  | clamp _ tid n c hi =>
    obtain ⟨p1, p2, p3⟩ := h.base.pcs _ (hget hi)
    refine linv_same h hb rfl rfl rfl ?_
    show min σ.queue.length _ = _
    omega
  | casNone _ tid tag n prev hi hg c hc =>
    obtain ⟨p1, p2, p3⟩ := h.base.pcs _ (hget hi)
    have hprev := groupClosure_none hg
    have hgr := (h.base.group p1).1
    have hpe : prev = σ.queue.length := by omega
    have cs : c.s = σ.queue.length := by rw [hc]
    have ce : c.e = σ.queue.length := by rw [hc]; exact hpe
    have cn : c.n = n := by rw [hc]
    refine linv_claim (np := σ.queue.length) h hb rfl rfl rfl (by omega) ?_ (by omega) ce.symm
      (fun q hq => ?_)
    · show _ = min σ.ptr _; omega
    · simp only [JobQueue.getBounds]
      rw [hq.strategy, p1, cn]
      simp only [JobQueue.getBoundsByTopLevelGroup]
      have : q.ptr = σ.queue.length := by rw [hq.ptr]; omega
      rw [this, hq.queue]
      rw [hpe] at hg
      rw [hg, cs, ce]
  | casOk _ tid tag n e hi hg c hc =>
    obtain ⟨p1, p2, p3⟩ := h.base.pcs _ (hget hi)
    have hb' := groupClosure_bounds hg
    have hgr := (h.base.group p1).1
    have cs : c.s = σ.ptr := by rw [hc]
    have ce : c.e = e := by rw [hc]
    have cn : c.n = n := by rw [hc]
    refine linv_claim (np := e) h hb rfl rfl rfl (by omega) ?_ (by omega) ce.symm
      (fun q hq => ?_)
    · show _ = min e _; omega
    · simp only [JobQueue.getBounds]
      rw [hq.strategy, p1, cn]
      simp only [JobQueue.getBoundsByTopLevelGroup]
      have : q.ptr = σ.ptr := by rw [hq.ptr]; omega
      rw [this, hq.queue, hg, cs, ce]
  | casRetry _ tid tag n prev hi => exact linv_same h hb rfl rfl rfl rfl
  | assignCell _ tid n c i hi hlt => exact linv_same h hb rfl rfl rfl rfl
  | assignDone _ tid n c i hi hge => exact linv_same h hb rfl rfl rfl rfl
  | checkEnd _ tid n c hi hge => exact linv_same h hb rfl rfl rfl rfl
  | checkMore _ tid n c hi hlt => exact linv_same h hb rfl rfl rfl rfl
  | markServing _ tid n c hi hl hp => exact linv_same h hb rfl rfl rfl rfl
  | markOther _ tid n c hi hl hp => exact linv_same h hb rfl rfl rfl rfl
  | partBegin _ tid tag hi hp => exact linv_same h hb rfl rfl rfl rfl
  | partStep _ tid tag k i acc t hi hc => exact linv_same h hb rfl rfl rfl rfl
  | partEnd _ tid tag k i acc hi hc => exact linv_same h hb rfl rfl rfl rfl
  | cancel _ hl hp => exact linv_same h hb rfl rfl rfl rfl

theorem linv_run (queue : List (T × Nat)) (strategy : TestStrategy) (k : Nat) (acts : List Act) :
    LInv ((init queue strategy k).run acts) :=
  run_induction _ _ (linv_init _ _ _) (fun _ _ _ h _ hs => linv_step h hs)

/-! ### The pointer -/

/-- How far a thread between `fetch_add` and the clamping store may have pushed the pointer
past the end. -/
def _root_.Abq.Pc.over {T : Type} : Pc T → Nat
  | .clamp n _ => n
  | _ => 0

theorem _root_.Abq.sum_set {α : Type} (f : α → Nat) (l : List α) (i : Nat) (old new : α)
    (h : l[i]? = some old) :
    ((l.set i new).map f).sum + f old = (l.map f).sum + f new := by
  induction l generalizing i with
  | nil => simp at h
  | cons x xs ih =>
    cases i with
    | zero => simp at h; subst h; simp; omega
    | succ i =>
      simp at h
      have := ih i h
      simp only [List.set_cons_succ, List.map_cons, List.sum_cons]
      omega

/-- Largest batch size asked for is `B`. -/
def Act.SizeLe (B : Nat) : Act → Prop
  | .call _ _ n => n ≤ B
  | _ => True

structure PInv (B : Nat) (σ : Sys T) : Prop where
  base : Inv σ
  bound : σ.ptr ≤ σ.queue.length + (σ.pcs.map Pc.over).sum
  size : ∀ pc ∈ σ.pcs, pc.over ≤ B

theorem pinv_move {B : Nat} {σ τ : Sys T} {tid : Nat} {old new : Pc T} (h : PInv B σ)
    (hb : Inv τ) (hi : σ.pcs[tid]? = some old) (hpcs : τ.pcs = σ.pcs.set tid new)
    (hq : τ.queue = σ.queue)
    (hp : τ.ptr ≤ σ.queue.length ∨ τ.ptr + old.over ≤ σ.ptr + new.over)
    (hn : new.over ≤ B) : PInv B τ := by
  refine ⟨hb, ?_, ?_⟩
  · have h1 := sum_set Pc.over σ.pcs tid old new hi
    have h2 := h.bound
    rw [hpcs, hq]
    omega
  · intro pc hm
    rw [hpcs] at hm
    rcases mem_set_imp hm with rfl | hm
    · exact hn
    · exact h.size pc hm

theorem over_afterBounds (len n : Nat) (c : Claim) : (afterBounds len n c : Pc T).over = 0 := by
  unfold afterBounds; split <;> rfl

theorem pinv_step {B : Nat} {σ τ : Sys T} {a : Act} (ha : Act.SizeLe B a) (h : PInv B σ)
    (hs : Step σ a τ) : PInv B τ := by
  have hb := inv_step h.base hs
  have hget : ∀ {tid pc}, σ.pcs[tid]? = some pc → pc ∈ σ.pcs :=
    fun hh => List.mem_of_getElem? hh
  cases hs with
  | claimTest tid tag n hi hn hp hs b hb' c hc pc hpc =>
    obtain ⟨b1, b2, b3⟩ := byTestBounds_spec σ.queue.length n σ.ptr hn
    rw [← hb'] at b1 b2 b3
    refine pinv_move (new := pc) h hb hi rfl rfl ?_ ?_
    · rw [hpc]
      split
      · right; show σ.ptr + n + 0 ≤ σ.ptr + n; omega
      · rename_i hh
        left
        show σ.ptr + n ≤ _
        have : ¬ (σ.ptr + n > σ.queue.length) := fun x => hh (b3.mpr x)
        omega
    · rw [hpc]
      split
      · exact ha
      · rw [over_afterBounds]; omega
  | casLoad tid tag n hi hn hp hs =>
    exact pinv_move h hb hi rfl rfl (.inr (Nat.le_refl _)) (Nat.zero_le _)
  | answerEmpty _ tag n hp => exact ⟨hb, h.bound, h.size⟩
  | clamp _ tid n c hi =>
    refine pinv_move h hb hi rfl rfl (.inl (Nat.le_refl _)) ?_
    rw [over_afterBounds]; omega
  | casNone _ tid tag n prev hi hg c hc =>
    refine pinv_move h hb hi rfl rfl (.inr ?_) ?_
    · rw [over_afterBounds]; exact Nat.le_refl _
    · rw [over_afterBounds]; omega
  | casOk _ tid tag n e hi hg c hc =>
    refine pinv_move h hb hi rfl rfl (.inl (groupClosure_bounds hg).2.2) ?_
    rw [over_afterBounds]; omega
  | casRetry _ tid tag n prev hi =>
    exact pinv_move h hb hi rfl rfl (.inr (Nat.le_refl _)) (Nat.zero_le _)
  | assignCell _ tid n c i hi hlt =>
    exact pinv_move h hb hi rfl rfl (.inr (Nat.le_refl _)) (Nat.zero_le _)
  | assignDone _ tid n c i hi hge =>
    exact pinv_move h hb hi rfl rfl (.inr (Nat.le_refl _)) (Nat.zero_le _)
  | checkEnd _ tid n c hi hge =>
    exact pinv_move h hb hi rfl rfl (.inr (Nat.le_refl _)) (Nat.zero_le _)
  | checkMore _ tid n c hi hlt =>
    exact pinv_move h hb hi rfl rfl (.inr (Nat.le_refl _)) (Nat.zero_le _)
  | markServing _ tid n c hi hl hp =>
    exact pinv_move h hb hi rfl rfl (.inr (Nat.le_refl _)) (Nat.zero_le _)
  | markOther _ tid n c hi hl hp =>
    exact pinv_move h hb hi rfl rfl (.inr (Nat.le_refl _)) (Nat.zero_le _)
  | partBegin _ tid tag hi hp =>
    exact pinv_move h hb hi rfl rfl (.inr (Nat.le_refl _)) (Nat.zero_le _)
  | partStep _ tid tag k i acc t hi hc =>
    exact pinv_move h hb hi rfl rfl (.inr (Nat.le_refl _)) (Nat.zero_le _)
  | partEnd _ tid tag k i acc hi hc =>
    exact pinv_move h hb hi rfl rfl (.inr (Nat.le_refl _)) (Nat.zero_le _)
  | cancel _ hl hp => exact ⟨hb, h.bound, h.size⟩

theorem pinv_run (B : Nat) (queue : List (T × Nat)) (strategy : TestStrategy) (k : Nat)
    (acts : List Act) (ha : ∀ a ∈ acts, Act.SizeLe B a) :
    PInv B ((init queue strategy k).run acts) := by
  refine run_induction _ _ ⟨inv_init _ _ _, by simp [init], ?_⟩
    (fun _ a _ h hm hs => pinv_step (ha a hm) h hs)
  intro pc hm
  simp [init] at hm
  simp [hm.2, Pc.over]

end Sys
end Abq
