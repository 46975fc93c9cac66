import Verif.Proof.Results

/-! # What the results file holds, whatever fails -/

namespace Abq.Results
open Spec

theorem Spec.Holds.mute {last : Option Nat} {evs : List Ev} {x : Bytes} {ev : Ev} (hk : ∀ k, last = some k → k ≤ evs.length)
    (h : Holds last evs x) (hm : Mute ev) : Holds last (evs ++ [ev]) x := by
  cases last with
  | none =>
    obtain ⟨base, hb, hd⟩ := h
    exact ⟨base, by rw [bases_mute _ _ hm, hb], by rw [content_mute _ _ _ hm, hd]⟩
  | some k =>
    show x = content [] ((evs ++ [ev]).drop k)
    rw [List.drop_append_of_le_length (hk k rfl), content_mute _ _ _ hm]
    exact h

theorem Spec.Holds.wrote {last : Option Nat} {evs : List Ev} {x : Bytes} (hk : ∀ k, last = some k → k ≤ evs.length)
    (h : Holds last evs x) (id : Nat) (c : Bytes) (ok : Bool) : Holds last (evs ++ [.wrote id c ok]) (x ++ c) := by
  cases last with
  | none =>
    obtain ⟨base, hb, hd⟩ := h
    exact ⟨base, by rw [bases_wrote, hb], by rw [content_wrote, hd]⟩
  | some k =>
    show x ++ c = content [] ((evs ++ [_]).drop k)
    rw [List.drop_append_of_le_length (hk k rfl), content_wrote]
    exact congrArg (· ++ c) h

theorem Spec.Holds.failed {last : Option Nat} {evs : List Ev} {x : Bytes} (hk : ∀ k, last = some k → k ≤ evs.length)
    (h : Holds last evs x) (o : Op) : Holds last (evs ++ [failed o]) x := by
  cases o with
  | dump id line =>
    have := h.wrote hk id [] false
    rw [List.append_nil] at this
    exact this
  | toRemote => exact h.mute hk trivial
  | read r => exact h.mute hk trivial

theorem Spec.Holds.runOp {last : Option Nat} {evs : List Ev} {disk : Bytes} (hk : ∀ k, last = some k → k ≤ evs.length)
    (h : Holds last evs disk) (noop : Bool) (remote : Option Bytes) (io : IoOut) (o : Op) :
    Holds last (evs ++ [(runOp noop disk remote io o).2.2]) (runOp noop disk remote io o).1 := by
  cases o <;> cases io
  case dump.ok => exact h.wrote hk _ _ _
  case dump.cut => exact h.wrote hk _ _ _
  all_goals exact h.mute hk trivial

/-- Where what the file holds is. -/
def Kept (last : Option Nat) (fd : Option Fd) (disk : Bytes) (remote : Option Bytes) (evs : List Ev) : Prop :=
  (∀ k, last = some k → k ≤ evs.length) ∧
  match fd with
  | none => last = none ∧ bases evs = [] ∧ content [] evs = []
  | some .opened => Holds last evs disk
  | some .offloaded => ∀ r, remote = some r → Holds last evs r

theorem Kept.len {last : Option Nat} {fd : Option Fd} {disk : Bytes} {remote : Option Bytes} {evs : List Ev}
    (h : Kept last fd disk remote evs) (ev : Ev) : ∀ k, last = some k → k ≤ (evs ++ [ev]).length := by
  intro k hk
  have := h.1 k hk
  rw [List.length_append]; omega

theorem Kept.mute {last : Option Nat} {fd : Option Fd} {disk : Bytes} {remote : Option Bytes} {evs : List Ev} {ev : Ev}
    (h : Kept last fd disk remote evs) (hm : Mute ev) : Kept last fd disk remote (evs ++ [ev]) := by
  refine ⟨h.len ev, ?_⟩
  obtain ⟨hk, h⟩ := h
  match fd with
  | none => exact ⟨h.1, by rw [bases_mute _ _ hm, h.2.1], by rw [content_mute _ _ _ hm, h.2.2]⟩
  | some .opened => exact Holds.mute hk h hm
  | some .offloaded => exact fun r hr => Holds.mute hk (h r hr) hm

theorem Kept.failed {last : Option Nat} {fd : Option Fd} {disk disk' : Bytes} {remote : Option Bytes} {evs : List Ev}
    (h : Kept last fd disk remote evs) (o : Op) (hd : fd = some .opened → disk' = disk) :
    Kept last fd disk' remote (evs ++ [Results.failed o]) := by
  refine ⟨h.len _, ?_⟩
  obtain ⟨hk, h⟩ := h
  match fd with
  | none =>
    cases o with
    | dump id line => exact ⟨h.1, by rw [Results.failed, bases_wrote, h.2.1], by rw [Results.failed, content_wrote, h.2.2]; rfl⟩
    | toRemote => exact ⟨h.1, (bases_mute _ (.stored false) trivial).trans h.2.1, (content_mute _ _ (.stored false) trivial).trans h.2.2⟩
    | read r => exact ⟨h.1, (bases_mute _ (.readFailed r) trivial).trans h.2.1, (content_mute _ _ (.readFailed r) trivial).trans h.2.2⟩
  | some .opened => rw [hd rfl]; exact Holds.failed hk h o
  | some .offloaded => exact fun r hr => Holds.failed hk (h r hr) o

/-- What a stream holds, among all observations. -/
def Shows (last : Option Nat) (evs : List Ev) : Ev → Prop
  | .stream _ bytes => Holds last evs bytes
  | _ => True

theorem shows_failed (last : Option Nat) (evs : List Ev) (o : Op) : Shows last evs (failed o) := by
  cases o <;> trivial

theorem shows_runOp {last : Option Nat} {evs : List Ev} {disk : Bytes} (h : Holds last evs disk) (noop : Bool)
    (remote : Option Bytes) (io : IoOut) (o : Op) : Shows last evs (runOp noop disk remote io o).2.2 := by
  cases o <;> cases io
  case read.ok => exact h
  all_goals trivial

theorem kept_fastPath {last : Option Nat} {σ τ : Res} {o : Op} {out : Out} {ev : Ev}
    (h : Kept last σ.fd σ.disk σ.remote σ.events) (hf : fastPath σ o out = some (τ, ev)) :
    Kept last τ.fd τ.disk τ.remote (σ.events ++ [ev]) ∧ τ.events = σ.events ∧ Shows last σ.events ev := by
  unfold fastPath at hf
  cases hfd : σ.fd with
  | none => simp [hfd] at hf
  | some fd =>
    have hk := h.1
    have hlen := h.len
    have h2 := h.2
    rw [hfd] at h2
    cases fd with
    | opened =>
      simp only [hfd, Option.some.injEq, Prod.mk.injEq] at hf
      obtain ⟨rfl, rfl⟩ := hf
      refine ⟨⟨hlen _, ?_⟩, rfl, shows_runOp h2 ..⟩
      simp only [hfd]
      exact Holds.runOp hk h2 ..
    | offloaded =>
      simp only [hfd] at hf
      split at hf
      · rename_i hc
        simp only [Option.some.injEq, Prod.mk.injEq] at hf
        obtain ⟨rfl, rfl⟩ := hf
        have hd : Holds last σ.events (load σ.remote σ.disk out.load).2 := by
          cases hrem : σ.remote with
          | none => rw [hrem] at hc; simp [load] at hc
          | some r =>
            rw [hrem] at hc
            cases hl : out.load with
            | ok => exact h2 r hrem
            | refused => rw [hl] at hc; simp [load] at hc
            | cut k => rw [hl] at hc; simp [load] at hc
        exact ⟨⟨hlen _, Holds.runOp hk hd ..⟩, rfl, shows_runOp hd ..⟩
      · simp only [Option.some.injEq, Prod.mk.injEq] at hf
        obtain ⟨rfl, rfl⟩ := hf
        have hf := h.failed (disk' := (load σ.remote σ.disk out.load).2) o (by rw [hfd]; simp)
        rw [hfd] at hf
        exact ⟨hf, rfl, shows_failed ..⟩

theorem kept_slowPath {last : Option Nat} {σ : Res} {out : Out} (h : Kept last σ.fd σ.disk σ.remote σ.events) :
    Kept last (slowPath σ out).1.fd (slowPath σ out).1.disk (slowPath σ out).1.remote (slowPath σ out).1.events ∧
      ((slowPath σ out).1.events = σ.events ∨ (slowPath σ out).2 = true ∧ ∃ b, (slowPath σ out).1.events = σ.events ++ [.opened b]) := by
  unfold slowPath
  cases hfd : σ.fd with
  | some fd => exact ⟨by simpa [hfd] using h, Or.inl rfl⟩
  | none =>
    have h2 := h.2
    rw [hfd] at h2
    obtain ⟨rfl, hb, hc⟩ := h2
    by_cases ho : out.openOk = true <;> simp only [ho, if_true]
    · refine ⟨⟨(fun k hk => nomatch hk), (load σ.remote σ.disk out.load).2, ?_, ?_⟩, Or.inr ⟨trivial, _, rfl⟩⟩
      · rw [bases_append, hb]; rfl
      · rw [content_append]
        simp only [content, List.nil_append] at hc
        have hw : writes [Ev.opened (load σ.remote σ.disk out.load).2] = [] := rfl
        simp only [content, hc, hw, List.append_nil, List.map_nil, List.flatten_nil]
    · exact ⟨⟨(fun k hk => nomatch hk), by simp only [hfd]; exact ⟨trivial, hb, hc⟩⟩, Or.inl rfl⟩

/-- A step keeps where things are, and adds at most one observation; a stream is what the file held. -/
def KeptOk (last : Option Nat) (σ τ : Res) (last' : Option Nat) : Prop :=
  Kept last' τ.fd τ.disk τ.remote τ.events ∧
    (τ.events = σ.events ∨ ∃ ev, τ.events = σ.events ++ [ev] ∧ Shows last σ.events ev)

theorem kept_task {last : Option Nat} {σ : Res} (t : Task) (out : Out) (h : Kept last σ.fd σ.disk σ.remote σ.events) :
    KeptOk last σ (stepTask σ out t) last := by
  cases t with
  | ack id line e =>
    simp only [stepTask]
    split
    · exact ⟨h.mute trivial, Or.inr ⟨_, rfl, trivial⟩⟩
    · exact ⟨by simpa [Res.add] using h, Or.inl (by simp [Res.add])⟩
  | finish id e => exact ⟨h.mute trivial, Or.inr ⟨_, rfl, trivial⟩⟩
  | op o e st =>
    have hfast : ∀ τ ev, fastPath σ o out = some (τ, ev) → KeptOk last σ (τ.add [ev] (after o e)) last := by
      intro τ ev hf
      obtain ⟨k1, k2, k3⟩ := kept_fastPath h hf
      exact ⟨by simpa only [Res.add, k2] using k1, Or.inr ⟨ev, by simp only [Res.add, k2], k3⟩⟩
    cases st with
    | fast =>
      simp only [stepTask]
      split
      · rename_i τ ev hf; exact hfast τ ev hf
      · exact ⟨by simpa [Res.add] using h, Or.inl (by simp [Res.add])⟩
    | second =>
      simp only [stepTask]
      split
      · rename_i τ ev hf; exact hfast τ ev hf
      · exact ⟨h.failed o (fun _ => rfl), Or.inr ⟨_, rfl, shows_failed ..⟩⟩
    | slow =>
      obtain ⟨k1, k2⟩ := kept_slowPath (out := out) h
      simp only [stepTask]
      split
      · refine ⟨by simpa [Res.add] using k1, ?_⟩
        simp only [Res.add, List.append_nil]
        rcases k2 with k2 | ⟨-, b, k2⟩
        · exact Or.inl k2
        · exact Or.inr ⟨_, k2, trivial⟩
      · rename_i hn
        refine ⟨k1.failed o (fun _ => rfl), ?_⟩
        rcases k2 with k2 | ⟨k2, -⟩
        · exact Or.inr ⟨failed o, by simp only [Res.add, k2], shows_failed ..⟩
        · exact absurd k2 hn

theorem eligible_halfDone (σ : Res) (c : OffloadConfig) (now accessed : Nat) :
    halfDone σ (.offload c now accessed .syncFails) = true ↔
      σ.fd = some .opened ∧ fileEligible c now accessed σ.disk.length = true := by
  cases c with
  | none => simp [halfDone, fileEligible, shouldOffload]
  | some t =>
    simp only [halfDone, fileEligible, shouldOffload, decide_eq_true_eq, Bool.and_eq_true, gt_iff_lt, List.length_pos_iff]
    constructor
    · rintro ⟨h1, h2, h3, h4⟩
      exact ⟨h1, h2, by rw [if_neg (by omega)]; simpa using h4⟩
    · rintro ⟨h1, h2, h3⟩
      split at h3
      · simp at h3
      · exact ⟨h1, h2, by omega, by simpa using h3⟩

theorem halfDone_other (σ : Res) (c : OffloadConfig) (now accessed : Nat) (o : OffloadOut) (h : o ≠ .syncFails) :
    halfDone σ (.offload c now accessed o) = false := by
  cases c <;> cases o <;> first | rfl | exact absurd rfl h

theorem kept_step {last : Option Nat} {σ : Res} (hrem : Rem σ) (a : Act) (h : Kept last σ.fd σ.disk σ.remote σ.events) :
    KeptOk last σ (step σ a) (if halfDone σ a then some (σ.events.length + 1) else last) := by
  cases a with
  | results line e => exact ⟨h.mute trivial, Or.inr ⟨_, rfl, trivial⟩⟩
  | summary line e => exact ⟨h.mute trivial, Or.inr ⟨_, rfl, trivial⟩⟩
  | request =>
    simp only [step]
    split
    · exact ⟨h.mute trivial, Or.inr ⟨_, rfl, trivial⟩⟩
    · exact ⟨h.mute trivial, Or.inr ⟨_, rfl, trivial⟩⟩
  | resume i out =>
    simp only [step]
    cases ht : σ.tasks[i]? with
    | none => exact ⟨h, Or.inl rfl⟩
    | some t => exact kept_task (σ := { σ with tasks := σ.tasks.eraseIdx i }) t out h
  | offload c now accessed o =>
    refine ⟨?_, ?_⟩
    · by_cases hc : σ.fd = some .opened ∧ fileEligible c now accessed σ.disk.length = true
      · have h2 := h.2
        rw [hc.1] at h2
        have h2 : Holds last σ.events σ.disk := h2
        have hm : ∀ b, Holds last (σ.events ++ [.offload b]) σ.disk := fun b => h2.mute h.1 trivial
        show Kept _ (offload σ c now accessed o).fd (offload σ c now accessed o).disk (offload σ c now accessed o).remote
          (offload σ c now accessed o).events
        simp only [offload.eq_def, if_pos hc]
        cases o with
        | ok =>
          rw [halfDone_other _ _ _ _ _ (by decide)]
          refine ⟨h.len _, ?_⟩
          intro r hr
          simp only [Res.add, store] at hr
          cases hn : σ.noop <;> simp only [hn, if_true, if_false, Bool.false_eq_true] at hr
          · cases hr; exact hm _
          · rw [hrem.noop hn] at hr; cases hr
        | storeFails =>
          rw [halfDone_other _ _ _ _ _ (by decide)]
          refine ⟨h.len _, ?_⟩
          simp only [Res.add, hc.1]
          exact hm _
        | truncateFails =>
          rw [halfDone_other _ _ _ _ _ (by decide)]
          refine ⟨h.len _, ?_⟩
          simp only [Res.add, hc.1]
          exact hm _
        | syncFails =>
          rw [if_pos ((eligible_halfDone σ c now accessed).2 hc)]
          refine ⟨?_, ?_⟩
          · intro k hk
            cases hk
            simp [Res.add]
          · simp only [Res.add, hc.1]
            show [] = content [] ((σ.events ++ [Ev.offload false]).drop (σ.events.length + 1))
            rw [List.drop_eq_nil_of_le (by simp)]
            rfl
      · have hn : halfDone σ (.offload c now accessed o) = false := by
          cases o with
          | syncFails =>
            cases hh : halfDone σ (.offload c now accessed .syncFails) with
            | false => rfl
            | true => exact absurd ((eligible_halfDone ..).1 hh) hc
          | _ => exact halfDone_other _ _ _ _ _ (by decide)
        rw [hn]
        show Kept last (offload σ c now accessed o).fd (offload σ c now accessed o).disk (offload σ c now accessed o).remote
          (offload σ c now accessed o).events
        simp only [offload.eq_def, if_neg hc]
        exact h.mute trivial
    · right
      show ∃ ev, (offload σ c now accessed o).events = _ ∧ _
      unfold offload
      split
      · cases o <;> exact ⟨_, rfl, trivial⟩
      · exact ⟨_, rfl, trivial⟩

theorem emptiedAt_append (as bs : List Act) (σ : Res) (last : Option Nat) :
    emptiedAt σ last (as ++ bs) = emptiedAt (run σ as) (emptiedAt σ last as) bs := by
  induction as generalizing σ last with
  | nil => rfl
  | cons a as ih => exact ih _ _

theorem kept_init (noop : Bool) (disk : Bytes) (remote : Option Bytes) :
    let σ := init noop disk remote
    Kept none σ.fd σ.disk σ.remote σ.events :=
  ⟨(fun _ h => nomatch h), rfl, rfl, rfl⟩

/-- What every stream holds, whatever the schedule. -/
theorem kept_run (noop : Bool) (disk : Bytes) (remote : Option Bytes) (acts : List Act) :
    let σ := run (init noop disk remote) acts
    Kept (emptiedAt (init noop disk remote) none acts) σ.fd σ.disk σ.remote σ.events ∧
      ∀ pre ev post, σ.events = pre ++ ev :: post →
        ∃ n, n < acts.length ∧ (run (init noop disk remote) (acts.take n)).events = pre ∧
          Shows (emptiedAt (init noop disk remote) none (acts.take n)) pre ev := by
  induction hn : acts.length generalizing acts with
  | zero =>
    obtain rfl := List.length_eq_zero_iff.mp hn
    exact ⟨kept_init noop disk remote, by simp [run, init]⟩
  | succ n ih =>
    rcases List.eq_nil_or_concat acts with rfl | ⟨acts, a, rfl⟩
    · simp at hn
    simp only [List.concat_eq_append] at hn ⊢
    have hlen : acts.length = n := by simpa using hn
    obtain ⟨hi, hk⟩ := ih acts hlen
    obtain ⟨h1, h2⟩ := kept_step (rem_run noop disk remote acts) a hi
    have hrun : run (init noop disk remote) (acts ++ [a]) = step (run (init noop disk remote) acts) a := by
      rw [run, List.foldl_append]; rfl
    rw [hrun]
    refine ⟨by rw [emptiedAt_append]; exact h1, ?_⟩
    have hold : ∀ pre ev post, (run (init noop disk remote) acts).events = pre ++ ev :: post →
        ∃ m, m < n + 1 ∧ (run (init noop disk remote) ((acts ++ [a]).take m)).events = pre ∧
          Shows (emptiedAt (init noop disk remote) none ((acts ++ [a]).take m)) pre ev := by
      intro pre ev post h
      obtain ⟨m, hm, k1, k2⟩ := hk pre ev post h
      refine ⟨m, by omega, ?_⟩
      rw [List.take_append_of_le_length (by omega)]
      exact ⟨k1, k2⟩
    intro pre ev post heq
    rcases h2 with h2 | ⟨ev', h2, hsh⟩
    · exact hold pre ev post (by rw [← h2]; exact heq)
    · rw [h2] at heq
      rcases List.eq_nil_or_concat post with rfl | ⟨post', x, rfl⟩
      · obtain ⟨hpre, h⟩ := List.append_inj' (t₁ := [ev']) (t₂ := [ev]) heq rfl
        simp only [List.cons.injEq, and_true] at h
        refine ⟨n, by omega, ?_⟩
        rw [← hlen, List.take_left]
        exact ⟨hpre, by rw [← hpre, ← h]; exact hsh⟩
      · refine hold pre ev post' ?_
        have h4 : (run (init noop disk remote) acts).events ++ [ev'] = (pre ++ ev :: post') ++ [x] := by
          simpa using heq
        exact (List.append_inj' h4 rfl).1

/-! ## What the file holds at first -/

/-- What the file held when it was first opened: what the disk held, or the beginning of what the remote held; if all downloads are
completed (`whole`), what the remote held if it held anything. -/
structure First (whole : Prop) (disk : Bytes) (remote : Option Bytes) (σ : Res) : Prop where
  closed : σ.fd = none → σ.remote = remote ∧ bases σ.events = [] ∧
    (σ.disk = disk ∨ ∃ r k, remote = some r ∧ σ.disk = r.take k) ∧ (remote = none → σ.disk = disk)
  base : ∀ b ∈ bases σ.events, (b = disk ∨ ∃ r k, remote = some r ∧ b = r.take k) ∧ (whole → b = remote.getD disk)

theorem First.mute {whole : Prop} {disk : Bytes} {remote : Option Bytes} {σ τ : Res} (h : First whole disk remote σ)
    (hfd : τ.fd = none → σ.fd = none ∧ τ.remote = σ.remote ∧ τ.disk = σ.disk) (hb : bases τ.events = bases σ.events) :
    First whole disk remote τ := by
  refine ⟨fun h0 => ?_, fun b hb' => h.base b (hb ▸ hb')⟩
  obtain ⟨k1, k2, k3⟩ := hfd h0
  rw [k2, k3, hb]
  exact h.closed k1

theorem load_first {disk : Bytes} {remote : Option Bytes} {d : Bytes} (o : LoadOut)
    (hd : d = disk ∨ ∃ r k, remote = some r ∧ d = r.take k) (hn : remote = none → d = disk) :
    ((load remote d o).2 = disk ∨ ∃ r k, remote = some r ∧ (load remote d o).2 = r.take k) ∧
      (remote = none → (load remote d o).2 = disk) ∧ (o = .ok → (load remote d o).2 = remote.getD disk) := by
  cases remote with
  | none => cases o <;> exact ⟨Or.inl (hn rfl), fun _ => hn rfl, fun _ => hn rfl⟩
  | some r =>
    cases o with
    | ok => exact ⟨Or.inr ⟨r, r.length, rfl, by simp [load]⟩, (fun h => nomatch h), fun _ => rfl⟩
    | refused => exact ⟨hd, (fun h => nomatch h), (fun h => nomatch h)⟩
    | cut k => exact ⟨Or.inr ⟨r, k, rfl, rfl⟩, (fun h => nomatch h), (fun h => nomatch h)⟩

theorem bases_failed (evs : List Ev) (o : Op) : bases (evs ++ [failed o]) = bases evs := by
  cases o <;> simp [bases, failed]

theorem bases_runOp (evs : List Ev) (noop : Bool) (disk : Bytes) (remote : Option Bytes) (io : IoOut) (o : Op) :
    bases (evs ++ [(runOp noop disk remote io o).2.2]) = bases evs := by
  cases o <;> cases io <;> simp [bases, runOp]

theorem fastPath_bases {σ τ : Res} {o : Op} {out : Out} {ev : Ev} (hf : fastPath σ o out = some (τ, ev)) :
    τ.fd ≠ none ∧ τ.events = σ.events ∧ bases (σ.events ++ [ev]) = bases σ.events := by
  unfold fastPath at hf
  split at hf
  · simp at hf
  · rename_i hfd
    simp only [Option.some.injEq, Prod.mk.injEq] at hf
    obtain ⟨rfl, rfl⟩ := hf
    exact ⟨by simp [hfd], rfl, bases_runOp ..⟩
  · rename_i hfd
    dsimp only at hf
    split at hf <;> simp only [Option.some.injEq, Prod.mk.injEq] at hf <;> obtain ⟨rfl, rfl⟩ := hf
    · exact ⟨by simp, rfl, bases_runOp ..⟩
    · exact ⟨by simp [hfd], rfl, bases_failed ..⟩

theorem first_task {whole : Prop} {disk : Bytes} {remote : Option Bytes} {σ : Res} (t : Task) (out : Out)
    (h : First whole disk remote σ) (hw : whole → out.load = .ok) : First whole disk remote (stepTask σ out t) := by
  cases t with
  | ack id line e =>
    simp only [stepTask]
    split
    · exact h.mute (fun h0 => ⟨h0, rfl, rfl⟩) (bases_mute _ _ trivial)
    · exact h.mute (fun h0 => ⟨h0, rfl, rfl⟩) (by simp [Res.add])
  | finish id e => exact h.mute (fun h0 => ⟨h0, rfl, rfl⟩) (bases_mute _ _ trivial)
  | op o e st =>
    have hfast : ∀ τ ev, fastPath σ o out = some (τ, ev) → First whole disk remote (τ.add [ev] (after o e)) := by
      intro τ ev hf
      obtain ⟨k1, k2, k3⟩ := fastPath_bases hf
      exact h.mute (fun h0 => absurd h0 k1) (by simp only [Res.add, k2]; exact k3)
    cases st with
    | fast =>
      simp only [stepTask]
      split
      · rename_i τ ev hf; exact hfast τ ev hf
      · exact h.mute (fun h0 => ⟨h0, rfl, rfl⟩) (by simp [Res.add])
    | second =>
      simp only [stepTask]
      split
      · rename_i τ ev hf; exact hfast τ ev hf
      · exact h.mute (fun h0 => ⟨h0, rfl, rfl⟩) (by simp only [Res.add]; exact bases_failed ..)
    | slow =>
      have hs : First whole disk remote (slowPath σ out).1 := by
        unfold slowPath
        cases hfd : σ.fd with
        | some fd => exact h
        | none =>
          obtain ⟨k1, k2, k3, k4⟩ := h.closed hfd
          obtain ⟨l1, l2, l3⟩ := load_first out.load k3 k4
          rw [k1]
          dsimp only
          split
          · refine ⟨(fun h0 => nomatch h0), ?_⟩
            intro b hb
            simp only [bases_append, k2, List.nil_append] at hb
            have hb : b ∈ [(load remote σ.disk out.load).2] := hb
            rw [List.mem_singleton.1 hb]
            exact ⟨l1, fun hwh => l3 (hw hwh)⟩
          · exact ⟨fun _ => ⟨rfl, k2, l1, l2⟩, h.base⟩
      simp only [stepTask]
      split
      · exact hs.mute (fun h0 => ⟨h0, rfl, rfl⟩) (by simp [Res.add])
      · exact hs.mute (fun h0 => ⟨h0, rfl, rfl⟩) (by simp only [Res.add]; exact bases_failed ..)

theorem first_step {whole : Prop} {disk : Bytes} {remote : Option Bytes} {σ : Res} (a : Act) (h : First whole disk remote σ)
    (hw : whole → ∀ i out, a = .resume i out → out.load = .ok) : First whole disk remote (step σ a) := by
  cases a with
  | results line e => exact h.mute (fun h0 => ⟨h0, rfl, rfl⟩) (bases_mute _ _ trivial)
  | summary line e => exact h.mute (fun h0 => ⟨h0, rfl, rfl⟩) (bases_mute _ _ trivial)
  | request =>
    simp only [step]
    split <;> exact h.mute (fun h0 => ⟨h0, rfl, rfl⟩) (bases_mute _ _ trivial)
  | resume i out =>
    simp only [step]
    split
    · exact h
    · exact first_task (σ := { σ with tasks := _ }) _ out ⟨h.closed, h.base⟩ (fun hwh => hw hwh i out rfl)
  | offload c now accessed o =>
    show First whole disk remote (offload σ c now accessed o)
    unfold offload
    split
    · rename_i hc
      cases o
      · exact h.mute (fun h0 => nomatch h0) (bases_mute _ _ trivial)
      all_goals exact h.mute (fun h0 => by simp [Res.add, hc.1] at h0) (bases_mute _ _ trivial)
    · exact h.mute (fun h0 => ⟨h0, rfl, rfl⟩) (bases_mute _ _ trivial)

theorem first_run {whole : Prop} {disk : Bytes} {remote : Option Bytes} {σ : Res} (acts : List Act) (h : First whole disk remote σ)
    (hw : whole → ∀ i out, Act.resume i out ∈ acts → out.load = .ok) : First whole disk remote (run σ acts) := by
  induction acts generalizing σ with
  | nil => exact h
  | cons a acts ih =>
    refine ih (first_step a h fun hwh i out he => hw hwh i out (by rw [he]; exact List.mem_cons_self)) fun hwh i out hm => ?_
    exact hw hwh i out (List.mem_cons_of_mem _ hm)

end Abq.Results
