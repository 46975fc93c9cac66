import Verif.Proof.Results

/-! # The copy in remote storage, and the lines of a stream -/

namespace Abq.Results
open Spec

/-- Whether a task will dump the results to the remote. -/
def isStore : Task → Bool
  | .op .toRemote _ _ => true
  | _ => false

/-- Once the plans are done and the last one was eligible, the remote holds everything or a dump to
it is in progress. -/
def Synced (σ : Res) : Prop :=
  σ.processing = 0 → lastEligible σ.events = some true → storesOk σ.events →
    (∃ t ∈ σ.tasks, isStore t = true) ∨
      ∃ base, bases σ.events = [base] ∧ σ.remote = some (content base σ.events)

theorem lastEligible_append (evs : List Ev) (ev : Ev) (h : ∀ id e, ev ≠ .finished id e) :
    lastEligible (evs ++ [ev]) = lastEligible evs := by
  cases ev <;> simp_all [lastEligible]

theorem storesOk_append {evs es : List Ev} (h : storesOk (evs ++ es)) : storesOk evs :=
  fun hm => h (List.mem_append_left _ hm)

/-- What a step does to the tasks that will dump to the remote, when it adds one observation that
neither changes the file nor is a plan's end. -/
theorem synced_same {σ τ : Res} {ev : Ev} (h : Synced σ) (hp : τ.processing = 0 → σ.processing = 0)
    (he : τ.events = σ.events ++ [ev]) (hm : Mute ev) (hf : ∀ id e, ev ≠ .finished id e)
    (ht : ∀ t ∈ σ.tasks, isStore t = true → ∃ t ∈ τ.tasks, isStore t = true)
    (hr : ∀ base, σ.remote = some (content base σ.events) → bases σ.events = [base] →
      τ.remote = some (content base σ.events)) : Synced τ := by
  intro h0 hl hs
  rw [he] at hl hs ⊢
  rw [lastEligible_append _ _ hf] at hl
  rcases h (hp h0) hl (storesOk_append hs) with ⟨t, htm, hst⟩ | ⟨base, hb, hre⟩
  · exact Or.inl (ht t htm hst)
  · exact Or.inr ⟨base, by rw [bases_mute _ _ hm, hb], by rw [content_mute _ _ _ hm]; exact hr base hre hb⟩

theorem synced_quiet {σ τ : Res} (h : Synced σ) (hp : τ.processing = 0 → σ.processing = 0)
    (he : τ.events = σ.events)
    (ht : ∀ t ∈ σ.tasks, isStore t = true → ∃ t ∈ τ.tasks, isStore t = true)
    (hr : τ.remote = σ.remote) : Synced τ := by
  intro h0 hl hs
  rw [he] at hl hs ⊢
  rcases h (hp h0) hl hs with ⟨t, htm, hst⟩ | ⟨base, hb, hre⟩
  · exact Or.inl (ht t htm hst)
  · exact Or.inr ⟨base, hb, by rw [hr, hre]⟩

/-- With a plan unfinished there is nothing to show. -/
theorem synced_busy {τ : Res} (h : τ.processing ≠ 0) : Synced τ := fun h0 => absurd h0 h

theorem fastPath_remote {σ τ : Res} {o : Op} {out : Out} {ev : Ev}
    (h : Content σ.fd σ.disk σ.remote σ.events) (hno : σ.noop = false)
    (hf : fastPath σ o out = some (τ, ev)) :
    τ.remote = σ.remote ∨ ev = .stored false ∨
      (ev = .stored true ∧ ∃ base, bases σ.events = [base] ∧ τ.remote = some (content base σ.events)) := by
  have key : ∀ disk remote base, bases σ.events = [base] → disk = content base σ.events →
      (runOp σ.noop disk remote out.io o).2.1 = remote ∨
      (runOp σ.noop disk remote out.io o).2.2 = .stored false ∨
      ((runOp σ.noop disk remote out.io o).2.2 = .stored true ∧
        ∃ base, bases σ.events = [base] ∧
          (runOp σ.noop disk remote out.io o).2.1 = some (content base σ.events)) := by
    intro disk remote base hb hd
    cases o <;> cases hio : out.io <;> simp [runOp, store, hno]
    exact Or.inr ⟨base, hb, hd⟩
  unfold fastPath at hf
  split at hf
  · simp at hf
  · rename_i hfd
    simp only [Content, hfd] at h
    obtain ⟨base, hb, hd⟩ := h
    simp only [Option.some.injEq, Prod.mk.injEq] at hf
    obtain ⟨rfl, rfl⟩ := hf
    exact key _ _ base hb hd
  · rename_i hfd
    simp only [Content, hfd] at h
    obtain ⟨base, hb, hr⟩ := h
    dsimp only at hf
    split at hf <;> simp only [Option.some.injEq, Prod.mk.injEq] at hf <;> obtain ⟨rfl, rfl⟩ := hf
    · rename_i hc
      have hd : (load σ.remote σ.disk out.load).2 = content base σ.events := by
        cases hrem : σ.remote <;> cases hl : out.load <;> simp_all [load]
      exact key _ _ base hb hd
    · exact Or.inl rfl

theorem synced_op {σ : Res} {o : Op} {e : Bool} {st : Stage} {ts : List Task} {fd : Option Fd}
    {disk : Bytes} {remote : Option Bytes} {ev : Ev}
    (hi : Inv { σ with tasks := .op o e st :: ts })
    (h : Synced { σ with tasks := .op o e st :: ts })
    (hev : EvOf o ev)
    (hr : remote = σ.remote ∧ (o = .toRemote → ev = .stored false) ∨ ev = .stored false ∨
      (ev = .stored true ∧ ∃ base, bases σ.events = [base] ∧ remote = some (content base σ.events))) :
    Synced ({ σ with fd, disk, remote, tasks := ts }.add [ev] (after o e)) := by
  cases o with
  | dump id line =>
    refine synced_busy ?_
    have := hi.processing
    simp only [Res.add] at this ⊢
    rw [unfinished_cons] at this
    simp only [isPlan, Bool.toNat_true] at this
    omega
  | toRemote =>
    intro h0 hl hs
    obtain ⟨ok, rfl⟩ := hev
    simp only [Res.add] at hl hs ⊢
    rcases hr with ⟨-, hr⟩ | hr | ⟨hev, base, hb, hr⟩
    · exact absurd (hr rfl) (by
        rintro ⟨⟩
        exact hs (by simp))
    · exact absurd hr (by
        rintro ⟨⟩
        exact hs (by simp))
    · exact Or.inr ⟨base, by rw [bases_mute _ _ (by trivial), hb], by
        rw [content_mute _ _ _ (by trivial), hr]⟩
  | read r =>
    have hmute : Mute ev ∧ ∀ id e, ev ≠ .finished id e := by
      rcases hev with ⟨b, rfl⟩ | rfl <;> simp [Mute]
    have hrem : remote = σ.remote := by
      rcases hr with ⟨hr, -⟩ | hev' | ⟨hev', -⟩
      · exact hr
      · rcases hev with ⟨b, rfl⟩ | rfl <;> simp at hev'
      · rcases hev with ⟨b, rfl⟩ | rfl <;> simp at hev'
    refine synced_same h (fun h => h) rfl hmute.1 hmute.2 ?_ ?_
    · intro t ht hst
      refine ⟨t, ?_, hst⟩
      rcases List.mem_cons.mp ht with rfl | ht
      · simp [isStore] at hst
      · exact List.mem_append_left _ ht
    · intro base hb _
      exact hrem.trans hb

theorem synced_task {σ : Res} {t : Task} {ts : List Task} (out : Out) (hno : σ.noop = false)
    (hi : Inv { σ with tasks := t :: ts }) (h : Synced { σ with tasks := t :: ts }) :
    Synced (stepTask { σ with tasks := ts } out t) := by
  cases t with
  | ack id line e =>
    have hb : σ.processing ≠ 0 := by
      have := hi.processing
      simp only at this
      rw [unfinished_cons] at this
      simp only [isPlan, Bool.toNat_true] at this
      omega
    simp only [stepTask]
    cases out.io <;> exact synced_busy hb
  | finish id e =>
    simp only [stepTask]
    intro h0 hl hs
    simp only [Res.add] at h0 hl hs ⊢
    have hp := hi.processing
    simp only at hp
    rw [unfinished_cons] at hp
    simp only [isPlan, Bool.toNat_true] at hp
    have h1 : σ.processing = 1 := by omega
    have he : e = true := by
      simp [lastEligible] at hl
      exact hl
    left
    simp [h1, he, isStore]
  | op o e st =>
    have hcont : Content σ.fd σ.disk σ.remote σ.events := hi.content
    have hmove : ∀ st', Synced ({ σ with tasks := ts }.add [] [.op o e st']) := by
      intro st'
      refine synced_quiet h (fun h => h) (by simp [Res.add]) ?_ rfl
      intro t ht hst
      rcases List.mem_cons.mp ht with rfl | ht
      · refine ⟨.op o e st', by simp [Res.add], ?_⟩
        cases o <;> simp [isStore] at hst ⊢
      · exact ⟨t, by simp [Res.add, ht], hst⟩
    have hfail : Synced ({ σ with fd := σ.fd, disk := σ.disk, remote := σ.remote, tasks := ts }.add
        [failed o] (after o e)) :=
      synced_op hi h (failed_ev o) (Or.inl ⟨rfl, by rintro rfl; rfl⟩)
    have hfp : ∀ τ ev, fastPath { σ with tasks := ts } o out = some (τ, ev) →
        Synced (τ.add [ev] (after o e)) := by
      intro τ ev hf
      obtain ⟨hc1, hevs, htasks, hproc, hnid, hnr, hnoop⟩ :=
        content_fastPath (σ := { σ with tasks := ts }) hcont hf
      have hτ : τ = { σ with fd := τ.fd, disk := τ.disk, remote := τ.remote, tasks := ts } := by
        cases τ; simp_all
      have hrem := fastPath_remote (σ := { σ with tasks := ts }) hcont hno hf
      rw [hτ]
      refine synced_op hi h (fastPath_ev hf) ?_
      rcases hrem with hrem | hrem
      · by_cases hst : ev = .stored true
        · -- a successful dump with an unchanged copy: the copy already was the file
          subst hst
          refine Or.inr (Or.inr ⟨rfl, ?_⟩)
          have ho : o = .toRemote := by
            have := fastPath_ev hf
            cases o <;> simp [EvOf] at this ⊢
          subst ho
          unfold fastPath at hf
          split at hf
          · simp at hf
          · rename_i hfd
            simp only at hfd
            simp only [Content, hfd] at hcont
            obtain ⟨base, hb, hd⟩ := hcont
            simp only [Option.some.injEq, Prod.mk.injEq] at hf
            obtain ⟨rfl, he⟩ := hf
            refine ⟨base, hb, ?_⟩
            cases hio : out.io <;> simp [runOp, hio, store, hno] at he ⊢
            exact hd
          · rename_i hfd
            simp only at hfd
            simp only [Content, hfd] at hcont
            obtain ⟨base, hb, hr⟩ := hcont
            cases hr2 : σ.remote with
            | none => simp [hr2, load, failed] at hf
            | some r => exact ⟨base, hb, hrem.trans (by simp only [hr2]; rw [hr r hr2])⟩
        · refine Or.inl ⟨hrem, ?_⟩
          rintro rfl
          obtain ⟨ok, rfl⟩ := fastPath_ev hf
          cases ok
          · rfl
          · exact absurd rfl hst
      · exact Or.inr hrem
    cases st with
    | fast =>
      simp only [stepTask]
      cases hf : fastPath { σ with tasks := ts } o out with
      | none => exact hmove .slow
      | some x => exact hfp _ _ hf
    | second =>
      simp only [stepTask]
      cases hf : fastPath { σ with tasks := ts } o out with
      | none => exact hfail
      | some x => exact hfp _ _ hf
    | slow =>
      simp only [stepTask]
      unfold slowPath
      cases hfd : σ.fd with
      | some fd =>
        simp only [if_true]
        exact hfd ▸ hmove .second
      | none =>
        by_cases ho : out.openOk = true
        · simp only [ho, if_true]
          intro h0 hl hs
          simp only [Content, hfd] at hcont
          rcases hmove .second h0 (by
              simp only [Res.add, List.append_nil] at hl ⊢
              rwa [lastEligible_append _ _ (by simp)] at hl) (by
              simp only [Res.add, List.append_nil] at hs ⊢
              exact storesOk_append hs) with h' | ⟨base, hb, -⟩
          · exact Or.inl h'
          · simp [Res.add, hcont.1] at hb
        · simp only [ho]
          exact synced_op hi h (failed_ev o) (Or.inl ⟨rfl, by rintro rfl; rfl⟩)

theorem synced_step {σ : Res} (hi : Inv σ) (h : Synced σ) (hno : σ.noop = false) (a : Act) :
    Synced (step σ a) := by
  cases a with
  | results line e => exact synced_busy (by simp [step, Res.add])
  | summary line e => exact synced_busy (by simp [step, Res.add])
  | request =>
    simp only [step]
    by_cases hp : σ.processing = 0 <;> simp only [hp, if_true, if_false]
    · exact synced_same h (fun _ => hp) rfl (by trivial) (by simp)
        (fun t ht hs => ⟨t, by simp [Res.add, ht], hs⟩) (fun b hb _ => hb)
    · exact synced_busy hp
  | resume i out =>
    simp only [step]
    cases ht : σ.tasks[i]? with
    | none => exact h
    | some t =>
      have hperm := perm_eraseIdx ht
      refine synced_task (σ := σ) out hno ⟨hi.content, ?_, ?_⟩ ?_
      · exact acc_tasks hi.acc (toWrite_perm hperm.symm)
      · simp [hi.processing, unfinished_perm hperm]
      · refine synced_quiet h (fun h => h) rfl ?_ rfl
        intro t' ht' hst
        exact ⟨t', hperm.mem_iff.mp ht', hst⟩
  | offload c now accessed o =>
    simp only [step]
    have hstore : ∀ base, bases σ.events = [base] → σ.disk = content base σ.events →
        store σ.noop σ.remote σ.disk = some (content base σ.events) := by
      intro base _ hd
      simp [store, hno, hd]
    unfold offload
    split
    · rename_i hc
      have hcont := hi.content
      simp only [Content, hc.1] at hcont
      obtain ⟨base, hb, hd⟩ := hcont
      have hall : ∀ base', σ.remote = some (content base' σ.events) → bases σ.events = [base'] →
          store σ.noop σ.remote σ.disk = some (content base' σ.events) := by
        intro base' _ hb'
        rw [hb] at hb'
        cases hb'
        exact hstore base hb hd
      cases o <;>
        first
        | exact synced_same h (fun h => h) rfl (by trivial) (by simp)
            (fun t ht hs => ⟨t, by simp [Res.add, ht], hs⟩) hall
        | exact synced_same h (fun h => h) rfl (by trivial) (by simp)
            (fun t ht hs => ⟨t, by simp [Res.add, ht], hs⟩) (fun b hb _ => hb)
    · exact synced_same h (fun h => h) rfl (by trivial) (by simp)
        (fun t ht hs => ⟨t, by simp [Res.add, ht], hs⟩) (fun b hb _ => hb)

theorem synced_run (disk : Bytes) (remote : Option Bytes) (acts : List Act)
    (hs : ∀ a ∈ acts, Safe a) : Synced (run (init false disk remote) acts) := by
  induction hn : acts.length generalizing acts with
  | zero =>
    obtain rfl := List.length_eq_zero_iff.mp hn
    intro _ hl
    simp [run, init, lastEligible] at hl
  | succ n ih =>
    rcases List.eq_nil_or_concat acts with rfl | ⟨acts, a, rfl⟩
    · simp at hn
    simp only [List.concat_eq_append] at hs ⊢
    have hs' : ∀ b ∈ acts, Safe b := fun b hb => hs b (by simp [hb])
    have hok := run_ok false disk remote acts hs'
    rw [run, List.foldl_append, List.foldl_cons, List.foldl_nil, ← run]
    exact synced_step hok.1 (ih acts hs' (by simpa using hn)) hok.2.1 a

/-! ## Lines -/

theorem linesAux_line (cur line rest : Bytes) (h : (10 : UInt8) ∉ line) :
    linesAux cur (line ++ 10 :: rest) = (cur ++ line) :: linesAux [] rest := by
  induction line generalizing cur with
  | nil => simp [linesAux]
  | cons b bs ih =>
    simp only [List.mem_cons, not_or] at h
    have hb : b ≠ 10 := fun hb => h.1 hb.symm
    simp [linesAux, hb, ih _ h.2]

theorem lines_packed (ls : List Bytes) (h : ∀ l ∈ ls, (10 : UInt8) ∉ l) :
    lines (ls.map packed).flatten = ls := by
  induction ls with
  | nil => rfl
  | cons l ls ih =>
    simp only [List.map_cons, List.flatten_cons, packed, lines]
    rw [show l ++ [10] ++ (List.map packed ls).flatten = l ++ 10 :: (List.map packed ls).flatten by simp,
      linesAux_line _ _ _ (h l (by simp))]
    simp only [List.nil_append]
    exact congrArg _ (ih fun l' hl => h l' (by simp [hl]))

end Abq.Results
