import Verif.Model.JobQueue

/-! Case analysis of `Sys.step`, and list lemmas. -/

namespace Abq
namespace Sys
variable {T : Type}

/-- `Sys.step` as a relation, one constructor per effective step. -/
inductive Step (σ : Sys T) : Act → Sys T → Prop where
  | claimTest (tid : Nat) (tag : Tag) (n : Nat) (hi : σ.pcs[tid]? = some .idle) (hn : 0 < n)
      (hp : σ.phase = .serving) (hs : σ.strategy = .byTest) (b : (Nat × Nat) × Bool)
      (hb : b = byTestBounds σ.queue.length n σ.ptr) (c : Claim)
      (hc : c = { tag := tag, n := n, s := b.1.1, e := b.1.2 }) (pc : Pc T)
      (hpc : pc = if b.2 then .clamp n c else afterBounds σ.cells.length n c) :
      Step σ (.call tid tag n) { σ with ptr := σ.ptr + n, log := σ.log ++ [c], pcs := σ.pcs.set tid pc }
  | casLoad (tid : Nat) (tag : Tag) (n : Nat) (hi : σ.pcs[tid]? = some .idle) (hn : 0 < n)
      (hp : σ.phase = .serving) (hs : σ.strategy = .byTopLevelGroup) :
      Step σ (.call tid tag n) { σ with pcs := σ.pcs.set tid (.cas tag n σ.ptr) }
  | answerEmpty (tid : Nat) (tag : Tag) (n : Nat) (hp : σ.phase ≠ .serving) :
      Step σ (.call tid tag n) { σ with resps := σ.resps ++ [emptyResp tag n] }
  | clamp (a : Act) (tid n : Nat) (c : Claim) (hi : σ.pcs[tid]? = some (.clamp n c)) :
      Step σ a { σ with
        ptr := σ.queue.length, pcs := σ.pcs.set tid (afterBounds σ.cells.length n c) }
  | casNone (a : Act) (tid : Nat) (tag : Tag) (n prev : Nat) (hi : σ.pcs[tid]? = some (.cas tag n prev))
      (hg : groupClosure σ.queue n prev = none) (c : Claim)
      (hc : c = { tag := tag, n := n, s := σ.queue.length, e := prev }) :
      Step σ a { σ with
        log := σ.log ++ [c], pcs := σ.pcs.set tid (afterBounds σ.cells.length n c) }
  | casOk (a : Act) (tid : Nat) (tag : Tag) (n e : Nat) (hi : σ.pcs[tid]? = some (.cas tag n σ.ptr))
      (hg : groupClosure σ.queue n σ.ptr = some e) (c : Claim)
      (hc : c = { tag := tag, n := n, s := σ.ptr, e := e }) :
      Step σ a { σ with
        ptr := e, log := σ.log ++ [c], pcs := σ.pcs.set tid (afterBounds σ.cells.length n c) }
  | casRetry (a : Act) (tid : Nat) (tag : Tag) (n prev : Nat) (hi : σ.pcs[tid]? = some (.cas tag n prev)) :
      Step σ a { σ with pcs := σ.pcs.set tid (.cas tag n σ.ptr) }
  | assignCell (a : Act) (tid n : Nat) (c : Claim) (i : Nat) (hi : σ.pcs[tid]? = some (.assign n c i))
      (hlt : i < c.e) :
      Step σ a { σ with
        cells := σ.cells.set i c.tag, pcs := σ.pcs.set tid (.assign n c (i + 1)) }
  | assignDone (a : Act) (tid n : Nat) (c : Claim) (i : Nat) (hi : σ.pcs[tid]? = some (.assign n c i))
      (hge : ¬ i < c.e) :
      Step σ a { σ with pcs := σ.pcs.set tid (.check n c) }
  | checkEnd (a : Act) (tid n : Nat) (c : Claim) (hi : σ.pcs[tid]? = some (.check n c))
      (hge : σ.queue.length ≤ σ.ptr) :
      Step σ a { σ with pcs := σ.pcs.set tid (.wantMark n c) }
  | checkMore (a : Act) (tid n : Nat) (c : Claim) (hi : σ.pcs[tid]? = some (.check n c))
      (hlt : σ.ptr < σ.queue.length) :
      Step σ a { σ with
        pcs := σ.pcs.set tid .idle, resps := σ.resps ++ [σ.bundleResp n c false] }
  | markServing (a : Act) (tid n : Nat) (c : Claim) (hi : σ.pcs[tid]? = some (.wantMark n c))
      (hl : σ.lockFree = true) (hp : σ.phase = .serving) :
      Step σ a { σ with
        phase := .done, view := some (σ.queue.map Prod.fst, σ.cells),
        pcs := σ.pcs.set tid .idle, resps := σ.resps ++ [σ.bundleResp n c true] }
  | markOther (a : Act) (tid n : Nat) (c : Claim) (hi : σ.pcs[tid]? = some (.wantMark n c))
      (hl : σ.lockFree = true) (hp : σ.phase ≠ .serving) :
      Step σ a { σ with
        pcs := σ.pcs.set tid .idle, resps := σ.resps ++ [σ.bundleResp n c true] }
  | partBegin (a : Act) (tid : Nat) (tag : Tag) (hi : σ.pcs[tid]? = some .idle) (hp : σ.phase = .serving) :
      Step σ a { σ with pcs := σ.pcs.set tid (.part tag σ.resps.length 0 []) }
  | partStep (a : Act) (tid : Nat) (tag : Tag) (k i : Nat) (acc : List Nat) (t : Tag)
      (hi : σ.pcs[tid]? = some (.part tag k i acc)) (hc : σ.cells[i]? = some t) :
      Step σ a { σ with
        pcs := σ.pcs.set tid (.part tag k (i + 1) (if t = tag then acc ++ [i] else acc)) }
  | partEnd (a : Act) (tid : Nat) (tag : Tag) (k i : Nat) (acc : List Nat)
      (hi : σ.pcs[tid]? = some (.part tag k i acc)) (hc : σ.cells[i]? = none) :
      Step σ a { σ with pcs := σ.pcs.set tid .idle, parts := σ.parts ++
        [PartResp.mk tag (acc.filterMap (fun i => (σ.queue[i]?).map Prod.fst)) k acc] }
  | cancel (a : Act) (hl : σ.lockFree = true) (hp : σ.phase ≠ .done) :
      Step σ a { σ with phase := .cancelled }

theorem isIdle_iff (σ : Sys T) (tid : Nat) :
    σ.isIdle tid = true ↔ σ.pcs[tid]? = some .idle := by
  unfold isIdle
  split <;> simp_all

theorem step_cases (σ : Sys T) (a : Act) : σ.step a = σ ∨ Step σ a (σ.step a) := by
  cases a with
  | call tid tag n =>
    simp only [step]
    split
    · rename_i h
      obtain ⟨h1, h2⟩ := h
      rw [isIdle_iff] at h1
      unfold call
      split
      · rename_i hp
        split
        · rename_i hs
          exact .inr (.claimTest tid tag n h1 h2 hp hs _ rfl _ rfl _ rfl)
        · rename_i hs
          exact .inr (.casLoad tid tag n h1 h2 hp hs)
      · rename_i hp
        exact .inr (.answerEmpty _ tag n hp)
    · exact .inl rfl
  | retry tid tag =>
    simp only [step]
    split
    · rename_i h
      obtain ⟨h1, h2⟩ := h
      rw [isIdle_iff] at h1
      exact .inr (.partBegin _ tid tag h1 h2)
    · exact .inl rfl
  | tick tid =>
    simp only [step]
    unfold tick
    split
    · exact .inl rfl
    · exact .inl rfl
    · exact .inl rfl
    · rename_i n c hi
      exact .inr (.clamp _ tid n c hi)
    · rename_i tag n prev hi
      unfold casStep
      split
      · rename_i hg
        exact .inr (.casNone _ tid tag n prev hi hg _ rfl)
      · rename_i e hg
        split
        · rename_i hpp
          subst hpp
          exact .inr (.casOk _ tid tag n e hi hg _ rfl)
        · exact .inr (.casRetry _ tid tag n prev hi)
    · rename_i n c i hi
      split
      · rename_i hlt
        exact .inr (.assignCell _ tid n c i hi hlt)
      · rename_i hlt
        exact .inr (.assignDone _ tid n c i hi hlt)
    · rename_i n c hi
      split
      · rename_i hge
        exact .inr (.checkEnd _ tid n c hi hge)
      · rename_i hge
        exact .inr (.checkMore _ tid n c hi (by omega))
    · rename_i n c hi
      split
      · rename_i hl
        unfold markEnd
        split
        · rename_i hp
          exact .inr (.markServing _ tid n c hi hl hp)
        · rename_i hp
          exact .inr (.markOther _ tid n c hi hl hp)
      · exact .inl rfl
    · rename_i tag k i acc hi
      split
      · rename_i t hc
        exact .inr (.partStep _ tid tag k i acc t hi hc)
      · rename_i hc
        exact .inr (.partEnd _ tid tag k i acc hi hc)
  | spurious tid =>
    simp only [step]
    split
    · rename_i tag n prev hi
      exact .inr (.casRetry _ tid tag n prev hi)
    · exact .inl rfl
  | cancel =>
    simp only [step]
    split
    · rename_i hl
      split
      · exact .inl rfl
      · rename_i hp
        exact .inr (.cancel _ hl hp)
    · exact .inl rfl

/-- Induction principle over schedules. -/
theorem run_induction {P : Sys T → Prop} (σ : Sys T) (acts : List Act) (h0 : P σ)
    (hs : ∀ τ a τ', P τ → a ∈ acts → Step τ a τ' → P τ') : P (σ.run acts) := by
  unfold run
  induction acts generalizing σ with
  | nil => exact h0
  | cons a as ih =>
    simp only [List.foldl_cons]
    apply ih
    · rcases step_cases σ a with h | h
      · rw [h]; exact h0
      · exact hs _ a _ h0 (by simp) h
    · intro τ b τ' h1 h2 h3
      exact hs τ b τ' h1 (by simp [h2]) h3

end Sys

/-! ### List lemmas -/

theorem filterMap_set_perm {α β : Type} (f : α → Option β) (l : List α) (i : Nat) (old new : α)
    (h : l[i]? = some old) :
    ∃ rest : List β,
      (l.filterMap f).Perm ((f old).toList ++ rest) ∧
      ((l.set i new).filterMap f).Perm ((f new).toList ++ rest) := by
  induction l generalizing i with
  | nil => simp at h
  | cons x xs ih =>
    cases i with
    | zero =>
      simp at h
      subst h
      refine ⟨xs.filterMap f, ?_, ?_⟩
      · rw [List.filterMap_cons]; cases f x <;> simp
      · rw [List.set_cons_zero, List.filterMap_cons]; cases f new <;> simp
    | succ i =>
      simp at h
      obtain ⟨rest, h1, h2⟩ := ih i h
      refine ⟨(f x).toList ++ rest, ?_, ?_⟩
      · rw [List.filterMap_cons]
        cases hx : f x with
        | none => simpa using h1
        | some y =>
          simp only [Option.toList_some, List.singleton_append]
          exact (h1.cons y).trans List.perm_middle.symm
      · rw [List.set_cons_succ, List.filterMap_cons]
        cases hx : f x with
        | none => simpa using h2
        | some y =>
          simp only [Option.toList_some, List.singleton_append]
          exact (h2.cons y).trans List.perm_middle.symm

theorem mem_set_imp {α : Type} {l : List α} {i : Nat} {a x : α} (h : x ∈ l.set i a) :
    x = a ∨ x ∈ l := by
  rcases List.mem_or_eq_of_mem_set h with h | h
  · exact .inr h
  · exact .inl h

end Abq
