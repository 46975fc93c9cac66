import Verif.Proof.JobQueueLin
import Verif.Proof.ManifestView

/-! Consequences of the invariants used by the property theorems of `Verif.Props.JobQueue`. -/

namespace Abq
namespace Sys
variable {T : Type}

theorem step_const {σ τ : Sys T} {a : Act} (h : Step σ a τ) :
    τ.queue = σ.queue ∧ τ.strategy = σ.strategy ∧ τ.pcs.length = σ.pcs.length ∧
    (∃ l, τ.log = σ.log ++ l) ∧ (∃ l, τ.resps = σ.resps ++ l) := by
  have n1 : ∃ l, σ.log = σ.log ++ l := ⟨[], by simp⟩
  have n2 : ∃ l, σ.resps = σ.resps ++ l := ⟨[], by simp⟩
  cases h <;> refine ⟨rfl, rfl, ?_, ?_, ?_⟩ <;>
    first | exact n1 | exact n2 | exact ⟨_, rfl⟩ | simp

theorem run_const (σ : Sys T) (acts : List Act) :
    (σ.run acts).queue = σ.queue ∧ (σ.run acts).strategy = σ.strategy ∧
    (σ.run acts).pcs.length = σ.pcs.length ∧
    (∃ l, (σ.run acts).log = σ.log ++ l) ∧ (∃ l, (σ.run acts).resps = σ.resps ++ l) := by
  refine run_induction (P := fun τ => τ.queue = σ.queue ∧ τ.strategy = σ.strategy ∧
    τ.pcs.length = σ.pcs.length ∧ (∃ l, τ.log = σ.log ++ l) ∧ (∃ l, τ.resps = σ.resps ++ l))
    σ acts ⟨rfl, rfl, rfl, ⟨[], by simp⟩, ⟨[], by simp⟩⟩ ?_
  intro τ a τ' ⟨h1, h2, h3, ⟨l1, h4⟩, ⟨l2, h5⟩⟩ _ hs
  obtain ⟨g1, g2, g3, ⟨m1, g4⟩, ⟨m2, g5⟩⟩ := step_const hs
  exact ⟨g1.trans h1, g2.trans h2, g3.trans h3, ⟨l1 ++ m1, by rw [g4, h4]; simp⟩,
    ⟨l2 ++ m2, by rw [g5, h5]; simp⟩⟩

theorem run_append (σ : Sys T) (l1 l2 : List Act) : σ.run (l1 ++ l2) = (σ.run l1).run l2 := by
  simp [run]

/-- A property of the batch sizes asked for carries over to the answers. -/
def _root_.Abq.Pc.asked {T : Type} : Pc T → Option Nat
  | .clamp n _ => some n
  | .cas _ n _ => some n
  | .assign n _ _ => some n
  | .check n _ => some n
  | .wantMark n _ => some n
  | _ => none

theorem asked_afterBounds (len n m : Nat) (c : Claim)
    (h : (afterBounds len n c : Pc T).asked = some m) : m = n := by
  unfold afterBounds at h
  split at h
  · simp [Pc.asked] at h; exact h.symm
  · simp [Pc.asked] at h

theorem asked_run (P : Nat → Prop) (σ : Sys T) (acts : List Act)
    (hp : ∀ pc ∈ σ.pcs, ∀ n, pc.asked = some n → P n) (hr : ∀ r ∈ σ.resps, P r.n)
    (ha : ∀ tid tag n, Act.call tid tag n ∈ acts → P n) : ∀ r ∈ (σ.run acts).resps, P r.n := by
  have key := run_induction (P := fun τ => (∀ pc ∈ τ.pcs, ∀ n, pc.asked = some n → P n) ∧
    (∀ r ∈ τ.resps, P r.n)) σ acts ⟨hp, hr⟩ ?_
  · exact key.2
  intro τ a τ' ⟨h1, h2⟩ hm hs
  have hget : ∀ {tid pc}, τ.pcs[tid]? = some pc → pc ∈ τ.pcs :=
    fun hh => List.mem_of_getElem? hh
  have moved : ∀ {tid : Nat} {new : Pc T}, (∀ n, new.asked = some n → P n) →
      ∀ pc ∈ τ.pcs.set tid new, ∀ n, pc.asked = some n → P n := by
    intro tid new hn pc hm n hh
    rcases mem_set_imp hm with rfl | hm
    · exact hn n hh
    · exact h1 pc hm n hh
  have resp : ∀ {r : Resp T}, P r.n → ∀ x ∈ τ.resps ++ [r], P x.n := by
    intro r hr x hx
    rcases List.mem_append.mp hx with hx | hx
    · exact h2 x hx
    · simp at hx; subst hx; exact hr
  cases hs with
  | claimTest tid tag n hi hn hp hs b hb' c hc pc hpc =>
    refine ⟨moved ?_, h2⟩
    have := ha _ _ _ hm
    intro m hm'
    rw [hpc] at hm'
    split at hm'
    · simp [Pc.asked] at hm'; subst hm'; exact this
    · rw [asked_afterBounds _ _ _ _ hm']; exact this
  | casLoad tid tag n hi hn hp hs =>
    refine ⟨moved ?_, h2⟩
    have := ha _ _ _ hm
    intro m hm'
    simp [Pc.asked] at hm'; subst hm'; exact this
  | answerEmpty tid tag n hp => exact ⟨h1, resp (ha _ _ _ hm)⟩
  | clamp _ tid n c hi =>
    refine ⟨moved (fun m hm' => ?_), h2⟩
    rw [asked_afterBounds _ _ _ _ hm']
    exact h1 _ (hget hi) _ rfl
  | casNone _ tid tag n prev hi hg c hc =>
    refine ⟨moved (fun m hm' => ?_), h2⟩
    rw [asked_afterBounds _ _ _ _ hm']
    exact h1 _ (hget hi) _ rfl
  | casOk _ tid tag n e hi hg c hc =>
    refine ⟨moved (fun m hm' => ?_), h2⟩
    rw [asked_afterBounds _ _ _ _ hm']
    exact h1 _ (hget hi) _ rfl
  | casRetry _ tid tag n prev hi => exact ⟨moved (fun m hm' => h1 _ (hget hi) m hm'), h2⟩
  | assignCell _ tid n c i hi hlt => exact ⟨moved (fun m hm' => h1 _ (hget hi) m hm'), h2⟩
  | assignDone _ tid n c i hi hge => exact ⟨moved (fun m hm' => h1 _ (hget hi) m hm'), h2⟩
  | checkEnd _ tid n c hi hge => exact ⟨moved (fun m hm' => h1 _ (hget hi) m hm'), h2⟩
  | checkMore _ tid n c hi hlt =>
    exact ⟨moved (by simp [Pc.asked]), resp (h1 _ (hget hi) n rfl)⟩
  | markServing _ tid n c hi hl hp =>
    exact ⟨moved (by simp [Pc.asked]), resp (h1 _ (hget hi) n rfl)⟩
  | markOther _ tid n c hi hl hp =>
    exact ⟨moved (by simp [Pc.asked]), resp (h1 _ (hget hi) n rfl)⟩
  | partBegin _ tid tag hi hp => exact ⟨moved (by simp [Pc.asked]), h2⟩
  | partStep _ tid tag k i acc t hi hc => exact ⟨moved (by simp [Pc.asked]), h2⟩
  | partEnd _ tid tag k i acc hi hc => exact ⟨moved (by simp [Pc.asked]), h2⟩
  | cancel _ hl hp => exact ⟨h1, h2⟩

end Sys

/-! ### Slices -/

variable {T : Type}

theorem slice_eq (q : List (T × Nat)) (s e : Nat) :
    slice q s e = ((q.map Prod.fst).drop s).take (e - s) := by
  simp [slice, List.map_take, List.map_drop]

theorem slice_length {q : List (T × Nat)} {s e : Nat} (h2 : e ≤ q.length) :
    (slice q s e).length = e - s := by
  simp [slice]; omega

theorem slice_get {q : List (T × Nat)} {s e k : Nat} (hk : s + k < e) :
    (slice q s e)[k]? = (q[s + k]?).map Prod.fst := by
  simp only [slice, List.getElem?_map, List.getElem?_take, List.getElem?_drop]
  rw [if_pos (by omega)]

theorem mem_slice {q : List (T × Nat)} {s e : Nat} {t : T} (h : t ∈ slice q s e) :
    ∃ p g, s ≤ p ∧ p < e ∧ q[p]? = some (t, g) := by
  obtain ⟨k, hk⟩ := List.mem_iff_getElem?.mp h
  have hlt : k < e - s := by
    have := (List.getElem?_eq_some_iff.mp hk).1
    simp [slice] at this; omega
  rw [slice_get (by omega)] at hk
  cases hq : q[s + k]? with
  | none => simp [hq] at hk
  | some x =>
    simp [hq] at hk
    exact ⟨s + k, x.2, by omega, by omega, by rw [hq, ← hk]⟩

theorem slice_mem {q : List (T × Nat)} {s e p : Nat} {t : T} {g : Nat} (h1 : s ≤ p) (h2 : p < e)
    (h : q[p]? = some (t, g)) : t ∈ slice q s e := by
  apply List.mem_iff_getElem?.mpr
  refine ⟨p - s, ?_⟩
  rw [slice_get (by omega), show s + (p - s) = p by omega, h]
  rfl

theorem pos_unique {q : List (T × Nat)} (hn : (q.map Prod.fst).Nodup) {i j : Nat} {t : T}
    {g g' : Nat} (h1 : q[i]? = some (t, g)) (h2 : q[j]? = some (t, g')) : i = j := by
  have a1 : (q.map Prod.fst)[i]? = some t := by simp [h1]
  have a2 : (q.map Prod.fst)[j]? = some t := by simp [h2]
  have l1 := (List.getElem?_eq_some_iff.mp a1).1
  exact (List.getElem?_inj l1 hn).mp (a1.trans a2.symm)

end Abq
