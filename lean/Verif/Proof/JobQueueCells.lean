import Verif.Proof.JobQueueInv

/-!
# Who owns which test, and how far the pointer runs

Helper invariants over the interleaved job queue of `Verif.Model.JobQueue`.
-/

namespace Abq
namespace Sys
variable {T : Type}

/-- The cells of claim `c` below `k` carry the tag of the claimant. -/
def AssignedUpTo (σ : Sys T) (c : Claim) (k : Nat) : Prop :=
  ∀ j, c.s ≤ j → j < k → σ.cells[j]? = some c.tag

/-- State of a retry-partition scan that has looked at the cells below `i`. -/
def PartOk (σ : Sys T) (tag : Tag) (k i : Nat) (acc : List Nat) : Prop :=
  k ≤ σ.resps.length ∧ acc.Pairwise (· < ·) ∧ (∀ j ∈ acc, j < i ∧ j < σ.cells.length) ∧
  (tag ≠ .externalClient → ∀ j ∈ acc, σ.cells[j]? = some tag) ∧
  (∀ r ∈ σ.resps.take k, r.tag = tag → ∀ c, r.claim = some c →
    ∀ j, c.s ≤ j → j < c.e → j < i → j ∈ acc)

def PcCells (σ : Sys T) : Pc T → Prop
  | .assign _ c i => AssignedUpTo σ c i
  | .check _ c => AssignedUpTo σ c c.e
  | .wantMark _ c => AssignedUpTo σ c c.e
  | .part tag k i acc => PartOk σ tag k i acc
  | _ => True

structure CInv (σ : Sys T) : Prop where
  base : Inv σ
  sound : ∀ i t, σ.cells[i]? = some t → t ≠ .externalClient →
    ∃ c ∈ σ.log, c.tag = t ∧ c.s ≤ i ∧ i < c.e
  pcCells : ∀ pc ∈ σ.pcs, PcCells σ pc
  respCells : ∀ r ∈ σ.resps, ∀ c, r.claim = some c → AssignedUpTo σ c c.e
  parts : ∀ p ∈ σ.parts, PartOk σ p.tag p.before σ.cells.length p.idxs ∧
    p.items = p.idxs.filterMap (fun i => (σ.queue[i]?).map Prod.fst)
  free : σ.phase ≠ .serving → ∀ pc ∈ σ.pcs, pc.holdsRead = false
  view : σ.phase = .done → σ.view = some (σ.queue.map Prod.fst, σ.cells)

/-- What a step may do to the cells: a cell of a claim that has been filled stays filled. -/
structure CFrame (σ τ : Sys T) : Prop where
  queue : τ.queue = σ.queue
  len : τ.cells.length = σ.cells.length
  keep : ∀ c ∈ σ.log, ∀ j, c.s ≤ j → j < c.e → σ.cells[j]? = some c.tag →
    τ.cells[j]? = some c.tag
  resps : ∃ l, τ.resps = σ.resps ++ l
  log : ∀ c ∈ σ.log, c ∈ τ.log

theorem CFrame.refl' {σ τ : Sys T} (hq : τ.queue = σ.queue) (hc : τ.cells = σ.cells)
    (hr : ∃ l, τ.resps = σ.resps ++ l) (hl : ∃ l, τ.log = σ.log ++ l) : CFrame σ τ := by
  refine ⟨hq, by rw [hc], fun _ _ _ _ _ h => by rw [hc]; exact h, hr, fun c h => ?_⟩
  obtain ⟨l, hl⟩ := hl
  rw [hl]; exact List.mem_append_left _ h

theorem CFrame.assigned {σ τ : Sys T} (f : CFrame σ τ) {c : Claim} {k : Nat} (hm : c ∈ σ.log)
    (hk : k ≤ c.e) (h : AssignedUpTo σ c k) : AssignedUpTo τ c k :=
  fun j h1 h2 => f.keep c hm j h1 (by omega) (h j h1 h2)

theorem CFrame.part {σ τ : Sys T} (f : CFrame σ τ) (h : CInv σ) {tag : Tag} {k i : Nat}
    {acc : List Nat} (hp : PartOk σ tag k i acc) : PartOk τ tag k i acc := by
  obtain ⟨h1, h2, h3, h4, h5⟩ := hp
  obtain ⟨l, hl⟩ := f.resps
  refine ⟨by rw [hl]; simp; omega, h2, fun j hj => by rw [f.len]; exact h3 j hj,
    fun ht j hj => ?_, ?_⟩
  · have := h4 ht j hj
    obtain ⟨c, hc, rfl, a, b⟩ := h.sound j tag this ht
    exact f.keep c hc j a b this
  · rw [hl, List.take_append_of_le_length h1]
    exact h5

theorem CFrame.pcCells {σ τ : Sys T} (f : CFrame σ τ) (h : CInv σ) {pc : Pc T}
    (hm : pc ∈ σ.pcs) (hp : PcCells σ pc) : PcCells τ pc := by
  have hok := h.base.pcs pc hm
  cases pc with
  | assign n c i => exact f.assigned (claim_mem_log h.base hm rfl) hok.2 hp
  | check n c => exact f.assigned (claim_mem_log h.base hm rfl) (Nat.le_refl _) hp
  | wantMark n c => exact f.assigned (claim_mem_log h.base hm rfl) (Nat.le_refl _) hp
  | part tag k i acc => exact f.part h hp
  | _ => trivial

/-- Preservation for a step that moves one thread (or none: `new = old`). -/
theorem cinv_of {σ τ : Sys T} (h : CInv σ) (hb : Inv τ) (f : CFrame σ τ)
    (hsound : ∀ i t, τ.cells[i]? = some t → t ≠ .externalClient → σ.cells[i]? = some t ∨
      ∃ c ∈ τ.log, c.tag = t ∧ c.s ≤ i ∧ i < c.e)
    (hpcs : ∀ pc ∈ τ.pcs, pc ∈ σ.pcs ∨ PcCells τ pc)
    (hresp : ∀ r ∈ τ.resps, r ∈ σ.resps ∨ ∀ c, r.claim = some c → AssignedUpTo τ c c.e)
    (hparts : ∀ p ∈ τ.parts, p ∈ σ.parts ∨ (PartOk τ p.tag p.before τ.cells.length p.idxs ∧
      p.items = p.idxs.filterMap (fun i => (τ.queue[i]?).map Prod.fst)))
    (hfree : τ.phase ≠ .serving → ∀ pc ∈ τ.pcs, pc.holdsRead = false)
    (hview : τ.phase = .done → τ.view = some (τ.queue.map Prod.fst, τ.cells)) : CInv τ := by
  refine ⟨hb, ?_, ?_, ?_, ?_, hfree, hview⟩
  · intro i t hi ht
    rcases hsound i t hi ht with h1 | h1
    · obtain ⟨c, hc, h2⟩ := h.sound i t h1 ht
      exact ⟨c, f.log c hc, h2⟩
    · exact h1
  · intro pc hm
    rcases hpcs pc hm with h1 | h1
    · exact f.pcCells h h1 (h.pcCells pc h1)
    · exact h1
  · intro r hr c hc
    rcases hresp r hr with h1 | h1
    · exact f.assigned (respClaim_mem_log h.base h1 hc) (Nat.le_refl _) (h.respCells r h1 c hc)
    · exact h1 c hc
  · intro p hp
    rcases hparts p hp with h1 | h1
    · obtain ⟨a, b⟩ := h.parts p h1
      rw [f.len, f.queue]
      exact ⟨f.part h a, b⟩
    · exact h1

theorem lockFree_iff {σ : Sys T} : σ.lockFree = true ↔ ∀ pc ∈ σ.pcs, pc.holdsRead = false := by
  simp [lockFree]

theorem cinv_init (queue : List (T × Nat)) (strategy : TestStrategy) (k : Nat) :
    CInv (init queue strategy k) := by
  refine ⟨inv_init _ _ _, ?_, ?_, ?_, ?_, ?_, ?_⟩
  · intro i t h ht
    simp only [init, List.getElem?_replicate] at h
    split at h
    · simp at h; exact absurd h.symm ht
    · simp at h
  · intro pc h
    simp [init] at h
    simp [h.2, PcCells]
  · simp [init]
  · simp [init]
  · simp [init]
  · simp [init]

theorem cinv_step {σ τ : Sys T} {a : Act} (h : CInv σ) (hs : Step σ a τ) : CInv τ := by
  have hb := inv_step h.base hs
  have hget : ∀ {tid pc}, σ.pcs[tid]? = some pc → pc ∈ σ.pcs :=
    fun hh => List.mem_of_getElem? hh
  have nolog : ∃ l, σ.log = σ.log ++ l := ⟨[], by simp⟩
  have noresp : ∃ l, σ.resps = σ.resps ++ l := ⟨[], by simp⟩
  have moved : ∀ {tid : Nat} {new : Pc T} {P : Pc T → Prop}, P new →
      ∀ pc ∈ σ.pcs.set tid new, pc ∈ σ.pcs ∨ P pc := by
    intro tid new P hn pc hm
    rcases mem_set_imp hm with rfl | hm
    · exact .inr hn
    · exact .inl hm
  have free' : ∀ {tid : Nat} {new : Pc T} {old : Pc T}, σ.pcs[tid]? = some old →
      (new.holdsRead = true → old.holdsRead = true) →
      σ.phase ≠ .serving → ∀ pc ∈ σ.pcs.set tid new, pc.holdsRead = false := by
    intro tid new old hi hh hp pc hm
    rcases mem_set_imp hm with rfl | hm
    · have := h.free hp _ (hget hi)
      cases hb : pc.holdsRead
      · rfl
      · rw [hh hb] at this; exact absurd this (by simp)
    · exact h.free hp pc hm
  cases hs with
  | claimTest tid tag n hi hn hp hs b hb' c hc pc hpc =>
    have hpc' : PcCells σ pc := by
      rw [hpc]
      split
      · trivial
      · unfold afterBounds
        split
        · exact fun j h1 h2 => by omega
        · trivial
    refine cinv_of h hb (.refl' rfl rfl noresp ⟨_, rfl⟩) (fun _ _ h _ => .inl h)
      (moved ?_) (fun _ => .inl) (fun _ => .inl) ?_ ?_
    · rw [hpc]
      split
      · trivial
      · unfold afterBounds
        split
        · exact fun j h1 h2 => by omega
        · trivial
    · intro hh; exact absurd hp hh
    · intro hh; rw [show σ.phase = _ from hp] at hh; exact absurd hh (by simp)
  | casLoad tid tag n hi hn hp hs =>
    refine cinv_of h hb (.refl' rfl rfl noresp nolog) (fun _ _ h _ => .inl h)
      (moved trivial) (fun _ => .inl) (fun _ => .inl) ?_ h.view
    intro hh; exact absurd hp hh
  | answerEmpty _ tag n hp =>
    refine cinv_of h hb (.refl' rfl rfl ⟨_, rfl⟩ nolog) (fun _ _ h _ => .inl h)
      (fun _ => .inl) ?_ (fun _ => .inl) h.free h.view
    intro r hr
    rcases List.mem_append.mp hr with hr | hr
    · exact .inl hr
    · simp at hr; subst hr
      exact .inr (fun c hc => by simp [emptyResp] at hc)
  | clamp _ tid n c hi =>
    refine cinv_of h hb (.refl' rfl rfl noresp nolog) (fun _ _ h _ => .inl h)
      (moved ?_) (fun _ => .inl) (fun _ => .inl) ?_ h.view
    · unfold afterBounds
      split
      · exact fun j h1 h2 => by omega
      · trivial
    · exact free' hi (fun _ => rfl)
  | casNone _ tid tag n prev hi hg c hc =>
    have hp := (h.base.pcs _ (hget hi)).2.2
    refine cinv_of h hb (.refl' rfl rfl noresp ⟨_, rfl⟩) (fun _ _ h _ => .inl h)
      (moved ?_) (fun _ => .inl) (fun _ => .inl) ?_ h.view
    · unfold afterBounds
      split
      · exact fun j h1 h2 => by omega
      · trivial
    · exact free' hi (fun _ => rfl)
  | casOk _ tid tag n e hi hg c hc =>
    refine cinv_of h hb (.refl' rfl rfl noresp ⟨_, rfl⟩) (fun _ _ h _ => .inl h)
      (moved ?_) (fun _ => .inl) (fun _ => .inl) ?_ h.view
    · unfold afterBounds
      split
      · exact fun j h1 h2 => by omega
      · trivial
    · exact free' hi (fun _ => rfl)
  | casRetry _ tid tag n prev hi =>
    exact cinv_of h hb (.refl' rfl rfl noresp nolog) (fun _ _ h _ => .inl h)
      (moved trivial) (fun _ => .inl) (fun _ => .inl) (free' hi (fun _ => rfl)) h.view
  | assignCell _ tid n c i hi hlt =>
    have hcm : c ∈ σ.log := claim_mem_log h.base (hget hi) rfl
    have hok := h.base.pcs _ (hget hi)
    have hil : i < σ.cells.length := by
      have := (h.base.tiled.mem hcm).2
      rw [h.base.cellsLen]; omega
    have hcs : c.s ≤ i := hok.1
    have hf : CFrame σ { σ with
        cells := σ.cells.set i c.tag, pcs := σ.pcs.set tid (.assign n c (i + 1)) } := by
      refine ⟨rfl, by simp, ?_, noresp, fun _ h => h⟩
      intro d hd j h1 h2 h3
      show (σ.cells.set i c.tag)[j]? = some d.tag
      by_cases hij : i = j
      · subst hij
        have : c = d := h.base.tiled.unique hcm hd hcs hlt h1 h2
        subst this
        rw [List.getElem?_set_self hil]
      · rw [List.getElem?_set_ne hij]; exact h3
    refine cinv_of h hb hf ?_ (moved ?_) (fun _ => .inl) (fun _ => .inl)
      (free' hi (fun _ => rfl)) ?_
    · intro j t hj ht
      have hj : (σ.cells.set i c.tag)[j]? = some t := hj
      by_cases hij : i = j
      · subst hij
        rw [List.getElem?_set_self hil] at hj
        exact .inr ⟨c, hcm, by simpa using hj, hcs, hlt⟩
      · rw [List.getElem?_set_ne hij] at hj; exact .inl hj
    · intro j h1 h2
      show (σ.cells.set i c.tag)[j]? = some c.tag
      by_cases hij : i = j
      · subst hij; rw [List.getElem?_set_self hil]
      · rw [List.getElem?_set_ne hij]
        exact h.pcCells _ (hget hi) j h1 (by omega)
    · intro hd
      have := h.free (by rw [show σ.phase = _ from hd]; simp) _ (hget hi)
      exact absurd this (by simp [Pc.holdsRead])
  | assignDone _ tid n c i hi hge =>
    have := h.pcCells _ (hget hi)
    refine cinv_of h hb (.refl' rfl rfl noresp nolog) (fun _ _ h _ => .inl h)
      (moved ?_) (fun _ => .inl) (fun _ => .inl) (free' hi (fun _ => rfl)) h.view
    exact fun j h1 h2 => this j h1 (by omega)
  | checkEnd _ tid n c hi hge =>
    have := h.pcCells _ (hget hi)
    exact cinv_of h hb (.refl' rfl rfl noresp nolog) (fun _ _ h _ => .inl h)
      (moved this) (fun _ => .inl) (fun _ => .inl) (free' hi (fun _ => rfl)) h.view
  | checkMore _ tid n c hi hlt =>
    have := h.pcCells _ (hget hi)
    refine cinv_of h hb (.refl' rfl rfl ⟨_, rfl⟩ nolog) (fun _ _ h _ => .inl h)
      (moved trivial) ?_ (fun _ => .inl) (free' hi (fun _ => rfl)) h.view
    intro r hr
    rcases List.mem_append.mp hr with hr | hr
    · exact .inl hr
    · simp at hr; subst hr
      refine .inr (fun d hd => ?_)
      simp only [bundleResp, Option.some.injEq] at hd; subst hd
      exact this
  | markServing _ tid n c hi hl hp =>
    have := h.pcCells _ (hget hi)
    refine cinv_of h hb (.refl' rfl rfl ⟨_, rfl⟩ nolog) (fun _ _ h _ => .inl h)
      (moved trivial) ?_ (fun _ => .inl) ?_ (fun _ => rfl)
    · intro r hr
      rcases List.mem_append.mp hr with hr | hr
      · exact .inl hr
      · simp at hr; subst hr
        refine .inr (fun d hd => ?_)
        simp only [bundleResp, Option.some.injEq] at hd; subst hd
        exact this
    · intro _ pc hm
      rcases mem_set_imp hm with rfl | hm
      · rfl
      · exact lockFree_iff.mp hl pc hm
  | markOther _ tid n c hi hl hp =>
    have := h.pcCells _ (hget hi)
    refine cinv_of h hb (.refl' rfl rfl ⟨_, rfl⟩ nolog) (fun _ _ h _ => .inl h)
      (moved trivial) ?_ (fun _ => .inl) (free' hi (by simp [Pc.holdsRead])) h.view
    intro r hr
    rcases List.mem_append.mp hr with hr | hr
    · exact .inl hr
    · simp at hr; subst hr
      refine .inr (fun d hd => ?_)
      simp only [bundleResp, Option.some.injEq] at hd; subst hd
      exact this
  | partBegin _ tid tag hi hp =>
    refine cinv_of h hb (.refl' rfl rfl noresp nolog) (fun _ _ h _ => .inl h)
      (moved ?_) (fun _ => .inl) (fun _ => .inl) ?_ h.view
    · refine ⟨Nat.le_refl _, .nil, by simp, by simp, fun r _ _ c _ j _ _ hj => by omega⟩
    · intro hh; exact absurd hp hh
  | partStep _ tid tag k i acc t hi hc =>
    obtain ⟨p1, p2, p3, p4, p5⟩ : PartOk σ tag k i acc := h.pcCells _ (hget hi)
    have hil : i < σ.cells.length := by
      rw [List.getElem?_eq_some_iff] at hc; exact hc.1
    refine cinv_of h hb (.refl' rfl rfl noresp nolog) (fun _ _ h _ => .inl h)
      (moved ?_) (fun _ => .inl) (fun _ => .inl) (free' hi (fun _ => rfl)) h.view
    split
    · rename_i ht
      subst ht
      refine ⟨p1, ?_, ?_, ?_, ?_⟩
      · rw [List.pairwise_append]
        refine ⟨p2, by simp, fun x hx y hy => ?_⟩
        simp at hy; subst hy; exact (p3 x hx).1
      · intro j hj
        rcases List.mem_append.mp hj with hj | hj
        · have := p3 j hj; exact ⟨by omega, this.2⟩
        · simp at hj; subst hj; exact ⟨by omega, hil⟩
      · intro ht j hj
        rcases List.mem_append.mp hj with hj | hj
        · exact p4 ht j hj
        · simp at hj; subst hj; exact hc
      · intro r hr hrt c' hc' j h1 h2 h3
        by_cases hji : j < i
        · exact List.mem_append_left _ (p5 r hr hrt c' hc' j h1 h2 hji)
        · have : j = i := by omega
          simp [this]
    · rename_i ht
      refine ⟨p1, p2, fun j hj => ⟨by have := (p3 j hj).1; omega, (p3 j hj).2⟩, p4, ?_⟩
      intro r hr hrt c' hc' j h1 h2 h3
      by_cases hji : j < i
      · exact p5 r hr hrt c' hc' j h1 h2 hji
      · have hje : j = i := by omega
        subst hje
        have hrm := List.mem_of_mem_take hr
        have := h.respCells r hrm c' hc' j h1 h2
        rw [hc] at this
        simp only [Option.some.injEq] at this
        have hct := ((h.base.resp r hrm).1 c' hc').1
        exact absurd (by rw [this, ← hct, hrt]) ht
  | partEnd _ tid tag k i acc hi hc =>
    obtain ⟨p1, p2, p3, p4, p5⟩ : PartOk σ tag k i acc := h.pcCells _ (hget hi)
    have hil : σ.cells.length ≤ i := by simpa using hc
    refine cinv_of h hb (.refl' rfl rfl noresp nolog) (fun _ _ h _ => .inl h)
      (moved trivial) (fun _ => .inl) ?_ (free' hi (by simp [Pc.holdsRead])) h.view
    intro p hp
    rcases List.mem_append.mp hp with hp | hp
    · exact .inl hp
    · simp at hp; subst hp
      refine .inr ⟨⟨p1, p2, fun j hj => ⟨(p3 j hj).2, (p3 j hj).2⟩, p4, ?_⟩, rfl⟩
      intro r hr hrt c' hc' j h1 h2 h3
      have h3 : j < σ.cells.length := h3
      exact p5 r hr hrt c' hc' j h1 h2 (by omega)
  | cancel _ hl hp =>
    refine cinv_of h hb (.refl' rfl rfl noresp nolog) (fun _ _ h _ => .inl h)
      (fun _ => .inl) (fun _ => .inl) (fun _ => .inl) (fun _ => lockFree_iff.mp hl) ?_
    intro hh; exact absurd hh (by simp)

theorem cinv_run (queue : List (T × Nat)) (strategy : TestStrategy) (k : Nat) (acts : List Act) :
    CInv ((init queue strategy k).run acts) :=
  run_induction _ _ (cinv_init _ _ _) (fun _ _ _ h _ hs => cinv_step h hs)

end Sys
end Abq
