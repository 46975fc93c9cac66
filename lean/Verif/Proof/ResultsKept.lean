import Verif.Proof.ResultsStore

/-! # Which state of the file the remote holds -/

namespace Abq.Results
open Spec

/-- The remote holds what it held at first, or the file as it was after `pre`; no copy was made since. -/
def Dated (first remote : Option Bytes) (evs : List Ev) : Prop :=
  (remote = first ∧ ∀ e ∈ evs, ¬ Copied e) ∨
  ∃ base pre post, evs = pre ++ post ∧ bases pre = [base] ∧ remote = some (content base pre) ∧ ∀ e ∈ post, ¬ Copied e

theorem Dated.keep {first remote : Option Bytes} {evs es : List Ev} (h : Dated first remote evs)
    (hes : ∀ e ∈ es, ¬ Copied e) : Dated first remote (evs ++ es) := by
  rcases h with ⟨h1, h2⟩ | ⟨base, pre, post, h1, h2, h3, h4⟩
  · refine .inl ⟨h1, fun e he => ?_⟩
    rcases List.mem_append.mp he with he | he
    · exact h2 e he
    · exact hes e he
  · refine .inr ⟨base, pre, post ++ es, by rw [h1, List.append_assoc], h2, h3, fun e he => ?_⟩
    rcases List.mem_append.mp he with he | he
    · exact h4 e he
    · exact hes e he

theorem Dated.now {first remote : Option Bytes} {evs : List Ev} {ev : Ev} {base : Bytes} (hb : bases evs = [base])
    (hr : remote = some (content base evs)) (hm : Mute ev) : Dated first remote (evs ++ [ev]) :=
  .inr ⟨base, evs ++ [ev], [], by simp, by rw [bases_mute _ _ hm, hb], by rw [content_mute _ _ _ hm, hr], by simp⟩

theorem failed_not_copied (o : Op) : ¬ Copied (failed o) := by
  cases o <;> simp [failed, Copied]

theorem fastPath_dated {σ τ : Res} {o : Op} {out : Out} {ev : Ev} {first : Option Bytes}
    (h : Content σ.fd σ.disk σ.remote σ.events) (hno : σ.noop = false) (hd : Dated first σ.remote σ.events)
    (hf : fastPath σ o out = some (τ, ev)) : Dated first τ.remote (σ.events ++ [ev]) := by
  have key : ∀ disk base, bases σ.events = [base] → disk = content base σ.events →
      Dated first (runOp σ.noop disk σ.remote out.io o).2.1 (σ.events ++ [(runOp σ.noop disk σ.remote out.io o).2.2]) := by
    intro disk base hb hdk
    cases o with
    | dump id line => cases out.io <;> exact hd.keep (by simp [runOp, Copied])
    | read r => cases out.io <;> exact hd.keep (by simp [runOp, Copied])
    | toRemote =>
      cases out.io with
      | ok =>
        refine Dated.now hb ?_ (by trivial)
        simp [runOp, store, hno, hdk]
      | cut k =>
        simp only [runOp]
        split
        · exact hd.keep (by simp [Copied])
        · exact Dated.now hb (by simp [store, hno, hdk]) (by trivial)
  unfold fastPath at hf
  split at hf
  · simp at hf
  · rename_i hfd
    simp only [Content, hfd] at h
    obtain ⟨base, hb, hdk⟩ := h
    simp only [Option.some.injEq, Prod.mk.injEq] at hf
    obtain ⟨rfl, rfl⟩ := hf
    exact key _ base hb hdk
  · rename_i hfd
    simp only [Content, hfd] at h
    obtain ⟨base, hb, hr⟩ := h
    dsimp only at hf
    split at hf <;> simp only [Option.some.injEq, Prod.mk.injEq] at hf <;> obtain ⟨rfl, rfl⟩ := hf
    · rename_i hc
      have hdk : (load σ.remote σ.disk out.load).2 = content base σ.events := by
        cases hrem : σ.remote <;> cases hl : out.load <;> simp_all [load]
      exact key _ base hb hdk
    · exact hd.keep (by simpa using failed_not_copied o)

theorem slowPath_dated {σ : Res} {out : Out} {first : Option Bytes} (hd : Dated first σ.remote σ.events) :
    Dated first (slowPath σ out).1.remote (slowPath σ out).1.events := by
  unfold slowPath
  split
  · exact hd
  · split
    · exact hd.keep (by simp [Copied])
    · exact hd

theorem task_dated {σ : Res} {t : Task} (out : Out) {first : Option Bytes} (h : Content σ.fd σ.disk σ.remote σ.events)
    (hno : σ.noop = false) (hd : Dated first σ.remote σ.events) :
    Dated first (stepTask σ out t).remote (stepTask σ out t).events := by
  have hop : ∀ o, ∀ τ ev, fastPath σ o out = some (τ, ev) → ∀ ts, Dated first (τ.add [ev] ts).remote (τ.add [ev] ts).events := by
    intro o τ ev hf ts
    have h1 := fastPath_dated h hno hd hf
    have h2 := (content_fastPath h hf).2.1
    show Dated first τ.remote (τ.events ++ [ev])
    rw [h2]
    exact h1
  cases t with
  | ack id line e =>
    simp only [stepTask]
    split <;> exact hd.keep (by simp [Copied])
  | finish id e =>
    exact hd.keep (by simp [Copied])
  | op o e st =>
    cases st with
    | fast =>
      simp only [stepTask]
      cases hf : fastPath σ o out with
      | none => exact hd.keep (by simp)
      | some x => exact hop o x.1 x.2 hf _
    | second =>
      simp only [stepTask]
      cases hf : fastPath σ o out with
      | none => exact hd.keep (by simpa using failed_not_copied o)
      | some x => exact hop o x.1 x.2 hf _
    | slow =>
      simp only [stepTask]
      split
      · exact (slowPath_dated hd).keep (by simp)
      · exact (slowPath_dated hd).keep (by simpa using failed_not_copied o)

theorem dated_step {σ : Res} (a : Act) {first : Option Bytes} (h : Content σ.fd σ.disk σ.remote σ.events)
    (hno : σ.noop = false) (hs : Safe a) (hd : Dated first σ.remote σ.events) :
    Dated first (step σ a).remote (step σ a).events := by
  cases a with
  | results line e => exact hd.keep (by simp [Copied])
  | summary line e => exact hd.keep (by simp [Copied])
  | request =>
    simp only [step]
    split <;> exact hd.keep (by simp [Copied])
  | resume i out =>
    simp only [step]
    split
    · exact hd
    · exact task_dated (σ := { σ with tasks := σ.tasks.eraseIdx i }) out h hno hd
  | offload c now accessed o =>
    simp only [step, offload]
    split
    · rename_i hc
      simp only [Content, hc.1] at h
      obtain ⟨base, hb, hdk⟩ := h
      cases o with
      | ok => exact Dated.now hb (by simp [Res.add, store, hno, hdk]) (by trivial)
      | storeFails => exact hd.keep (by simp [Copied])
      | truncateFails => exact Dated.now hb (by simp [Res.add, store, hno, hdk]) (by trivial)
      | syncFails => exact hs.elim
    · exact hd.keep (by simp [Copied])

theorem dated_run (disk : Bytes) (remote : Option Bytes) (acts : List Act) (hs : ∀ a ∈ acts, Safe a) :
    Dated remote (run (init false disk remote) acts).remote (run (init false disk remote) acts).events := by
  induction hn : acts.length generalizing acts with
  | zero =>
    obtain rfl := List.length_eq_zero_iff.mp hn
    exact .inl ⟨rfl, by simp [run, init]⟩
  | succ n ih =>
    rcases List.eq_nil_or_concat acts with rfl | ⟨acts, a, rfl⟩
    · simp at hn
    simp only [List.concat_eq_append] at hs hn ⊢
    have hs' : ∀ b ∈ acts, Safe b := fun b hb => hs b (by simp [hb])
    obtain ⟨hi, hno, _⟩ := run_ok false disk remote acts hs'
    rw [run, List.foldl_append, List.foldl_cons, List.foldl_nil, ← run]
    exact dated_step a hi.content hno (hs a (by simp)) (ih acts hs' (by simpa using hn))

end Abq.Results
