import Verif.Proof.JobQueueStep

/-! Invariants of the interleaved job queue. -/

namespace Abq

/-- `log` tiles `[a, b)` by consecutive claims. -/
def Tiled : Nat → List Claim → Nat → Prop
  | a, [], b => a = b
  | a, c :: cs, b => c.s = a ∧ c.s ≤ c.e ∧ Tiled c.e cs b

theorem Tiled.snoc {a b : Nat} {l : List Claim} {c : Claim} (h : Tiled a l b)
    (hs : c.s = b) (he : c.s ≤ c.e) : Tiled a (l ++ [c]) c.e := by
  induction l generalizing a with
  | nil => simp only [Tiled] at h; simp [Tiled, h, hs]; omega
  | cons x xs ih => obtain ⟨h1, h2, h3⟩ := h; exact ⟨h1, h2, ih h3⟩

theorem Tiled.le {a b : Nat} {l : List Claim} (h : Tiled a l b) : a ≤ b := by
  induction l generalizing a with
  | nil => simp only [Tiled] at h; omega
  | cons x xs ih => obtain ⟨h1, h2, h3⟩ := h; have := ih h3; omega

theorem Tiled.mem {a b : Nat} {l : List Claim} {c : Claim} (h : Tiled a l b) (hc : c ∈ l) :
    a ≤ c.s ∧ c.s ≤ c.e ∧ c.e ≤ b := by
  induction l generalizing a with
  | nil => simp at hc
  | cons x xs ih =>
    obtain ⟨h1, h2, h3⟩ := h
    rcases List.mem_cons.mp hc with rfl | hc
    · have := h3.le; omega
    · have := ih h3 hc; omega

/-- Every index of the tiled region is in some claim. -/
theorem Tiled.cover {a b : Nat} {l : List Claim} (h : Tiled a l b) {i : Nat} (h1 : a ≤ i)
    (h2 : i < b) : ∃ c ∈ l, c.s ≤ i ∧ i < c.e := by
  induction l generalizing a with
  | nil => simp only [Tiled] at h; omega
  | cons x xs ih =>
    obtain ⟨e1, e2, e3⟩ := h
    by_cases hx : i < x.e
    · exact ⟨x, by simp, by omega, hx⟩
    · obtain ⟨c, hc, hc'⟩ := ih e3 (by omega)
      exact ⟨c, by simp [hc], hc'⟩

/-- Two claims covering the same index are equal. -/
theorem Tiled.unique {a b : Nat} {l : List Claim} (h : Tiled a l b) {i : Nat} {c d : Claim}
    (hc : c ∈ l) (hd : d ∈ l) (hc1 : c.s ≤ i) (hc2 : i < c.e) (hd1 : d.s ≤ i) (hd2 : i < d.e) :
    c = d := by
  induction l generalizing a with
  | nil => simp at hc
  | cons x xs ih =>
    obtain ⟨e1, e2, e3⟩ := h
    rcases List.mem_cons.mp hc with hcx | hcx <;> rcases List.mem_cons.mp hd with hdx | hdx
    · rw [hcx, hdx]
    · have := e3.mem hdx; rw [hcx] at hc2; omega
    · have := e3.mem hcx; rw [hdx] at hd2; omega
    · exact ih e3 hcx hdx

theorem take_drop_append {α : Type} (l : List α) {a b c : Nat} (h1 : a ≤ b) (h2 : b ≤ c) :
    (l.drop a).take (b - a) ++ (l.drop b).take (c - b) = (l.drop a).take (c - a) := by
  have : c - a = (b - a) + (c - b) := by omega
  rw [this, List.take_add, List.drop_drop]
  congr 3
  omega

theorem slice_append {T : Type} (q : List (T × Nat)) {a b c : Nat} (h1 : a ≤ b) (h2 : b ≤ c) :
    slice q a b ++ slice q b c = slice q a c := by
  unfold slice
  rw [← List.map_append, take_drop_append q h1 h2]

theorem Tiled.flatMap_slice {T : Type} (q : List (T × Nat)) {a b : Nat} {l : List Claim}
    (h : Tiled a l b) : l.flatMap (fun c => slice q c.s c.e) = slice q a b := by
  induction l generalizing a with
  | nil => simp only [Tiled] at h; simp [slice, h]
  | cons x xs ih =>
    obtain ⟨e1, e2, e3⟩ := h
    rw [List.flatMap_cons, ih e3, ← e1]
    exact slice_append q e2 e3.le

/-! ### The scan over groups -/

theorem scanGroups_ge {T : Type} (n start : Nat) (rest : List (T × Nat)) (cur e : Nat) :
    e ≤ scanGroups n start rest cur e := by
  induction rest generalizing cur e with
  | nil => simp [scanGroups]
  | cons x xs ih =>
    obtain ⟨t, g⟩ := x
    simp only [scanGroups]
    split
    · split
      · omega
      · have := ih g (e + 1); omega
    · have := ih cur (e + 1); omega

theorem scanGroups_le {T : Type} (n start : Nat) (rest : List (T × Nat)) (cur e : Nat) :
    scanGroups n start rest cur e ≤ e + rest.length := by
  induction rest generalizing cur e with
  | nil => simp [scanGroups]
  | cons x xs ih =>
    obtain ⟨t, g⟩ := x
    simp only [scanGroups, List.length_cons]
    split
    · split
      · omega
      · have := ih g (e + 1); omega
    · have := ih cur (e + 1); omega

theorem groupClosure_bounds {T : Type} {queue : List (T × Nat)} {n start e : Nat}
    (h : groupClosure queue n start = some e) :
    start < queue.length ∧ start < e ∧ e ≤ queue.length := by
  unfold groupClosure at h
  split at h
  · simp at h
  · rename_i hlt
    split at h
    · simp at h
    · rename_i x xs hd
      have hlen : (queue.drop start).length = xs.length + 1 := by rw [hd]; simp
      rw [List.length_drop] at hlen
      simp only [Option.some.injEq] at h
      have h1 : scanGroups n start (x :: xs) x.2 start = scanGroups n start xs x.2 (start + 1) := by
        obtain ⟨t, g⟩ := x
        simp [scanGroups]
      have h2 := scanGroups_ge n start xs x.2 (start + 1)
      have h3 := scanGroups_le n start xs x.2 (start + 1)
      omega

theorem groupClosure_none {T : Type} {queue : List (T × Nat)} {n start : Nat}
    (h : groupClosure queue n start = none) : queue.length ≤ start := by
  unfold groupClosure at h
  split at h
  · assumption
  · rename_i hlt
    split at h
    · rename_i hd
      have := congrArg List.length hd
      rw [List.length_drop] at this
      simp at this
      omega
    · simp at h

/-- `p` is not inside a group: it is an end of the queue or the groups on both sides differ. -/
def Boundary {T : Type} (queue : List (T × Nat)) (p : Nat) : Prop :=
  p = 0 ∨ queue.length ≤ p ∨ (queue[p - 1]?).map Prod.snd ≠ (queue[p]?).map Prod.snd

theorem scanGroups_spec {T : Type} (queue : List (T × Nat)) (n start : Nat)
    (rest : List (T × Nat)) (cur e : Nat) (he : start < e) (hr : queue.drop e = rest)
    (hcur : (queue[e - 1]?).map Prod.snd = some cur) (hle : e ≤ queue.length) :
    let r := scanGroups n start rest cur e
    Boundary queue r ∧ (r - start ≥ n ∨ r = queue.length) ∧
    ∀ p, e ≤ p → p < r → Boundary queue p → p - start < n := by
  induction rest generalizing cur e with
  | nil =>
    have : queue.length ≤ e := by simpa using hr
    simp only [scanGroups]
    exact ⟨.inr (.inl this), .inr (by omega), fun p h1 h2 => by omega⟩
  | cons x xs ih =>
    obtain ⟨t, g⟩ := x
    have hlt : e < queue.length := by
      have := congrArg List.length hr
      rw [List.length_drop] at this
      simp at this
      omega
    have hxe : queue[e]? = some (t, g) := by
      have : (queue.drop e)[0]? = some (t, g) := by rw [hr]; rfl
      simpa using this
    have hxs : queue.drop (e + 1) = xs := by
      rw [← List.tail_drop, hr]; rfl
    have step : ∀ cur', cur' = g →
        (∀ p, p = e → Boundary queue p → p - start < n) →
        let r := scanGroups n start xs cur' (e + 1)
        Boundary queue r ∧ (r - start ≥ n ∨ r = queue.length) ∧
        ∀ p, e ≤ p → p < r → Boundary queue p → p - start < n := by
      intro cur' hc' hb
      have := ih cur' (e + 1) (by omega) hxs (by simp [hxe, hc']) (by omega)
      refine ⟨this.1, this.2.1, fun p h1 h2 h3 => ?_⟩
      rcases Nat.lt_or_ge e p with h | h
      · exact this.2.2 p (by omega) h2 h3
      · exact hb p (by omega) h3
    simp only [scanGroups]
    split
    · rename_i hg
      split
      · rename_i hn
        refine ⟨.inr (.inr ?_), .inl hn, fun p h1 h2 => by omega⟩
        rw [hcur, hxe]
        simp only [Option.map_some, ne_eq, Option.some.injEq]
        exact fun h => hg h.symm
      · rename_i hn
        exact step g rfl (fun p hp _ => by omega)
    · rename_i hg
      simp only [ne_eq, Decidable.not_not] at hg
      refine step cur hg.symm (fun p hp hb => ?_)
      subst hp
      rcases hb with hb | hb | hb
      · omega
      · omega
      · exact absurd (by rw [hcur, hxe, ← hg]; rfl) hb

theorem groupClosure_spec {T : Type} {queue : List (T × Nat)} {n start e : Nat}
    (h : groupClosure queue n start = some e) :
    Boundary queue e ∧ (e - start ≥ n ∨ e = queue.length) ∧
    ∀ p, start < p → p < e → Boundary queue p → p - start < n := by
  unfold groupClosure at h
  split at h
  · simp at h
  · rename_i hlt
    split at h
    · simp at h
    · rename_i x xs hd
      simp only [Option.some.injEq] at h
      have h1 : scanGroups n start (x :: xs) x.2 start = scanGroups n start xs x.2 (start + 1) := by
        obtain ⟨t, g⟩ := x
        simp [scanGroups]
      have hx : queue[start]? = some x := by
        have : (queue.drop start)[0]? = some x := by rw [hd]; rfl
        simpa using this
      have hxs : queue.drop (start + 1) = xs := by rw [← List.tail_drop, hd]; rfl
      have := scanGroups_spec queue n start xs x.2 (start + 1) (by omega) hxs (by simp [hx])
        (by omega)
      rw [← h, h1]
      exact ⟨this.1, this.2.1, fun p h1 h2 h3 => this.2.2 p (by omega) h2 h3⟩

theorem byTestBounds_spec (len n start : Nat) (hn : 0 < n) :
    let b := byTestBounds len n start
    b.1.1 = min start len ∧ b.1.2 = min (start + n) len ∧ (b.2 = true ↔ start + n > len) := by
  unfold byTestBounds
  split
  · simp; omega
  · split
    · simp; omega
    · simp; omega

namespace Sys
variable {T : Type}

/-- Shape of the program counters. -/
def PcOk (σ : Sys T) : Pc T → Prop
  | .idle => True
  | .clamp _ c => σ.strategy = .byTest ∧ σ.queue.length ≤ σ.ptr ∧ c.e = σ.queue.length
  | .cas _ _ prev => σ.strategy = .byTopLevelGroup ∧ prev ≤ σ.ptr ∧ σ.phase = .serving
  | .assign _ c i => c.s ≤ i ∧ i ≤ c.e
  | .check _ _ => True
  | .wantMark _ _ => σ.queue.length ≤ σ.ptr
  | .part .. => True
  | .panicked => False

/-- The width of a claim against the batch size. -/
def WidthOk (σ : Sys T) (n : Nat) (c : Claim) : Prop :=
  (σ.strategy = .byTest → c.e - c.s ≤ n ∧ (c.e - c.s = n ∨ c.e = σ.queue.length)) ∧
  (σ.strategy = .byTopLevelGroup →
    Boundary σ.queue c.s ∧ Boundary σ.queue c.e ∧
    (c.e - c.s ≥ n ∨ c.e = σ.queue.length) ∧
    ∀ p, c.s < p → p < c.e → Boundary σ.queue p → p - c.s < n)

/-- Batch size of an unanswered request. -/
def _root_.Abq.Pc.req? : Pc T → Option (Nat × Claim)
  | .clamp n c => some (n, c)
  | .assign n c _ => some (n, c)
  | .check n c => some (n, c)
  | .wantMark n c => some (n, c)
  | _ => none

/-- What holds of an answer. -/
def RespOk (σ : Sys T) (r : Resp T) : Prop :=
  (∀ c, r.claim = some c →
    r.tag = c.tag ∧ r.items = slice σ.queue c.s c.e ∧ WidthOk σ r.n c ∧
    (r.eow = true → σ.queue.length ≤ σ.ptr) ∧ (r.eow = false → c.s < c.e ∧ c.e < σ.queue.length)) ∧
  (r.claim = none → r.items = [] ∧ r.eow = true ∧ σ.phase ≠ .serving)

structure Inv (σ : Sys T) : Prop where
  cellsLen : σ.cells.length = σ.queue.length
  tiled : Tiled 0 σ.log (min σ.ptr σ.queue.length)
  nonempty : ∀ c ∈ σ.log, c.s < c.e ∨ c.s = σ.queue.length
  perm : σ.log.Perm (σ.resps.filterMap (·.claim) ++ σ.pcs.filterMap Pc.claim?)
  pcs : ∀ pc ∈ σ.pcs, PcOk σ pc
  width : ∀ pc ∈ σ.pcs, ∀ n c, pc.req? = some (n, c) → WidthOk σ n c
  group : σ.strategy = .byTopLevelGroup → σ.ptr ≤ σ.queue.length ∧ Boundary σ.queue σ.ptr
  doneEnd : σ.phase = .done → σ.queue.length ≤ σ.ptr
  resp : ∀ r ∈ σ.resps, RespOk σ r

theorem inv_init (queue : List (T × Nat)) (strategy : TestStrategy) (k : Nat) :
    Inv (init queue strategy k) := by
  constructor
  · simp [init]
  · simp [init, Tiled]
  · simp [init]
  · simp only [init, List.filterMap_nil, List.nil_append]
    have : (List.replicate k (Pc.idle : Pc T)).filterMap Pc.claim? = [] := by
      simp [Pc.claim?]
    rw [this]
  · intro pc h
    simp [init] at h
    simp [h.2, PcOk]
  · intro pc h
    simp [init] at h
    simp [h.2, Pc.req?]
  · simp [init, Boundary]
  · simp [init]
  · simp [init]

/-- A thread moves without answering, keeping its claim (or lack of one). -/
theorem perm_move {σ : Sys T} {tid : Nat} {old new : Pc T} (h : Inv σ)
    (hi : σ.pcs[tid]? = some old) (hc : new.claim? = old.claim?) :
    σ.log.Perm (σ.resps.filterMap (·.claim) ++ (σ.pcs.set tid new).filterMap Pc.claim?) := by
  obtain ⟨rest, h1, h2⟩ := filterMap_set_perm Pc.claim? σ.pcs tid old new hi
  rw [hc] at h2
  exact h.perm.trans ((h1.trans h2.symm).append_left _)

/-- A thread makes a claim. -/
theorem perm_claim {σ : Sys T} {tid : Nat} {old new : Pc T} {c : Claim} (h : Inv σ)
    (hi : σ.pcs[tid]? = some old) (ho : old.claim? = none) (hc : new.claim? = some c) :
    (σ.log ++ [c]).Perm
      (σ.resps.filterMap (·.claim) ++ (σ.pcs.set tid new).filterMap Pc.claim?) := by
  obtain ⟨rest, h1, h2⟩ := filterMap_set_perm Pc.claim? σ.pcs tid old new hi
  rw [ho] at h1
  rw [hc] at h2
  simp only [Option.toList_none, List.nil_append, Option.toList_some,
    List.singleton_append] at h1 h2
  refine (List.perm_append_comm).trans ?_
  refine ((h.perm.trans (h1.append_left _)).cons c).trans ?_
  refine (List.perm_middle.symm).trans ?_
  exact (h2.symm.append_left _)

/-- A thread answers its claim. -/
theorem perm_answer {σ : Sys T} {tid : Nat} {old : Pc T} {c : Claim} {r : Resp T} (h : Inv σ)
    (hi : σ.pcs[tid]? = some old) (ho : old.claim? = some c) (hr : r.claim = some c) :
    σ.log.Perm ((σ.resps ++ [r]).filterMap (·.claim) ++
      (σ.pcs.set tid .idle).filterMap Pc.claim?) := by
  obtain ⟨rest, h1, h2⟩ := filterMap_set_perm Pc.claim? σ.pcs tid old .idle hi
  rw [ho] at h1
  have hn : (Pc.idle : Pc T).claim? = none := rfl
  rw [hn] at h2
  simp only [Option.toList_none, List.nil_append, Option.toList_some,
    List.singleton_append] at h1 h2
  rw [List.filterMap_append]
  have : List.filterMap (·.claim) [r] = [c] := by simp [hr]
  rw [this, List.append_assoc]
  refine (h.perm.trans (h1.append_left _)).trans ?_
  exact ((h2.symm.cons c).append_left _)

theorem afterBounds_claim {len n : Nat} {c : Claim} (h1 : c.s ≤ c.e) (h2 : c.e ≤ len) :
    (afterBounds len n c : Pc T) = .assign n c c.s := by
  simp [afterBounds, h1, h2]

theorem claim_mem_log {σ : Sys T} (h : Inv σ) {pc : Pc T} {c : Claim} (hp : pc ∈ σ.pcs)
    (hc : pc.claim? = some c) : c ∈ σ.log := by
  rw [h.perm.mem_iff]
  simp only [List.mem_append, List.mem_filterMap]
  exact .inr ⟨pc, hp, hc⟩

theorem respClaim_mem_log {σ : Sys T} (h : Inv σ) {r : Resp T} {c : Claim} (hp : r ∈ σ.resps)
    (hc : r.claim = some c) : c ∈ σ.log := by
  rw [h.perm.mem_iff]
  simp only [List.mem_append, List.mem_filterMap]
  exact .inl ⟨r, hp, hc⟩

/-- Conditions under which the shape of other threads and the answers survive a step. -/
structure Frame (σ τ : Sys T) : Prop where
  queue : τ.queue = σ.queue
  strategy : τ.strategy = σ.strategy
  ended : σ.queue.length ≤ σ.ptr → σ.queue.length ≤ τ.ptr
  grow : σ.strategy = .byTopLevelGroup → σ.ptr ≤ τ.ptr
  phase : σ.phase ≠ .serving → τ.phase ≠ .serving
  lock : σ.phase = .serving → τ.phase = .serving ∨ σ.lockFree = true

theorem Frame.pcOk {σ τ : Sys T} {pc : Pc T} (f : Frame σ τ) (hm : pc ∈ σ.pcs)
    (h : PcOk σ pc) : PcOk τ pc := by
  obtain ⟨h1, h2, h3, h4, h5, h6⟩ := f
  cases pc with
  | cas tag n prev =>
    obtain ⟨a, b, c⟩ := h
    refine ⟨h2.trans a, Nat.le_trans b (h4 a), ?_⟩
    rcases h6 c with h6 | h6
    · exact h6
    · unfold lockFree at h6
      rw [List.all_eq_true] at h6
      simpa [Pc.holdsRead] using h6 _ hm
  | _ => simp_all [PcOk]

theorem Frame.widthOk {σ τ : Sys T} {n : Nat} {c : Claim} (f : Frame σ τ)
    (h : WidthOk σ n c) : WidthOk τ n c := by
  unfold WidthOk at *; rw [f.queue, f.strategy]; exact h

theorem Frame.respOk {σ τ : Sys T} {r : Resp T} (f : Frame σ τ) (h : RespOk σ r) :
    RespOk τ r := by
  refine ⟨fun c hc => ?_, fun hc => ?_⟩
  · obtain ⟨h1, h2, h3, h4, h5⟩ := h.1 c hc
    exact ⟨h1, by rw [f.queue]; exact h2, f.widthOk h3,
      fun he => by rw [f.queue]; exact f.ended (h4 he), by rw [f.queue]; exact h5⟩
  · obtain ⟨h1, h2, h3⟩ := h.2 hc
    exact ⟨h1, h2, f.phase h3⟩

/-- Steps in which thread `tid` moves to `new` and nobody claims or answers. -/
theorem inv_move {σ τ : Sys T} {tid : Nat} {old new : Pc T} (h : Inv σ) (f : Frame σ τ)
    (hi : σ.pcs[tid]? = some old) (hpcs : τ.pcs = σ.pcs.set tid new)
    (hlog : τ.log = σ.log) (hresps : τ.resps = σ.resps)
    (hcl : new.claim? = old.claim?) (hrq : ∀ x, new.req? = some x → old.req? = some x)
    (hnew : PcOk τ new) (hcells : τ.cells.length = σ.cells.length)
    (hmin : min τ.ptr σ.queue.length = min σ.ptr σ.queue.length)
    (hgrp : τ.strategy = .byTopLevelGroup → τ.ptr ≤ τ.queue.length ∧ Boundary τ.queue τ.ptr)
    (hdone : τ.phase = .done → τ.queue.length ≤ τ.ptr) : Inv τ := by
  constructor
  · rw [hcells, f.queue]; exact h.cellsLen
  · rw [hlog, f.queue, hmin]; exact h.tiled
  · rw [hlog, f.queue]; exact h.nonempty
  · rw [hlog, hresps, hpcs]; exact perm_move h hi hcl
  · intro x hx
    rw [hpcs] at hx
    rcases mem_set_imp hx with rfl | hx
    · exact hnew
    · exact f.pcOk hx (h.pcs x hx)
  · intro x hx m d hd
    rw [hpcs] at hx
    rcases mem_set_imp hx with rfl | hx
    · exact f.widthOk (h.width _ (List.mem_of_getElem? hi) m d (hrq _ hd))
    · exact f.widthOk (h.width x hx m d hd)
  · exact hgrp
  · exact hdone
  · intro r hr
    rw [hresps] at hr
    exact f.respOk (h.resp r hr)

/-- Steps in which thread `tid` claims `c`. -/
theorem inv_claim {σ τ : Sys T} {tid n : Nat} {old new : Pc T} {c : Claim} (h : Inv σ)
    (f : Frame σ τ)
    (hi : σ.pcs[tid]? = some old) (hpcs : τ.pcs = σ.pcs.set tid new)
    (hlog : τ.log = σ.log ++ [c]) (hresps : τ.resps = σ.resps)
    (ho : old.claim? = none) (hcl : new.claim? = some c) (hrq : new.req? = some (n, c))
    (hnew : PcOk τ new) (hcells : τ.cells.length = σ.cells.length)
    (cs : c.s = min σ.ptr σ.queue.length) (ce : c.e = min τ.ptr σ.queue.length)
    (hse : c.s ≤ c.e) (hne : c.s < c.e ∨ c.s = σ.queue.length) (hw : WidthOk σ n c)
    (hgrp : τ.strategy = .byTopLevelGroup → τ.ptr ≤ τ.queue.length ∧ Boundary τ.queue τ.ptr)
    (hdone : τ.phase = .done → τ.queue.length ≤ τ.ptr) : Inv τ := by
  constructor
  · rw [hcells, f.queue]; exact h.cellsLen
  · rw [hlog, f.queue, ← ce]; exact h.tiled.snoc cs hse
  · intro d hd
    rw [f.queue]
    rw [hlog] at hd
    rcases List.mem_append.mp hd with hd | hd
    · exact h.nonempty d hd
    · simp at hd; subst hd; exact hne
  · rw [hlog, hresps, hpcs]; exact perm_claim h hi ho hcl
  · intro x hx
    rw [hpcs] at hx
    rcases mem_set_imp hx with rfl | hx
    · exact hnew
    · exact f.pcOk hx (h.pcs x hx)
  · intro x hx m d hd
    rw [hpcs] at hx
    rcases mem_set_imp hx with rfl | hx
    · rw [hrq] at hd
      simp only [Option.some.injEq, Prod.mk.injEq] at hd
      obtain ⟨rfl, rfl⟩ := hd
      exact f.widthOk hw
    · exact f.widthOk (h.width x hx m d hd)
  · exact hgrp
  · exact hdone
  · intro r hr
    rw [hresps] at hr
    exact f.respOk (h.resp r hr)

/-- Steps in which thread `tid` answers its claim `c` and becomes idle. -/
theorem inv_answer {σ τ : Sys T} {tid n : Nat} {old : Pc T} {c : Claim} {eow : Bool} (h : Inv σ)
    (f : Frame σ τ) (hi : σ.pcs[tid]? = some old) (hpcs : τ.pcs = σ.pcs.set tid .idle)
    (hlog : τ.log = σ.log) (hresps : τ.resps = σ.resps ++ [σ.bundleResp n c eow])
    (ho : old.claim? = some c) (hrq : old.req? = some (n, c))
    (hcells : τ.cells.length = σ.cells.length) (hptr : τ.ptr = σ.ptr)
    (he : eow = true ↔ σ.queue.length ≤ σ.ptr)
    (hdone : τ.phase = .done → τ.queue.length ≤ τ.ptr) : Inv τ := by
  constructor
  · rw [hcells, f.queue]; exact h.cellsLen
  · rw [hlog, f.queue, hptr]; exact h.tiled
  · rw [hlog, f.queue]; exact h.nonempty
  · rw [hlog, hresps, hpcs]; exact perm_answer h hi ho rfl
  · intro x hx
    rw [hpcs] at hx
    rcases mem_set_imp hx with rfl | hx
    · trivial
    · exact f.pcOk hx (h.pcs x hx)
  · intro x hx m d hd
    rw [hpcs] at hx
    rcases mem_set_imp hx with rfl | hx
    · simp [Pc.req?] at hd
    · exact f.widthOk (h.width x hx m d hd)
  · intro hg; rw [f.queue, hptr]; rw [f.strategy] at hg; exact h.group hg
  · exact hdone
  · intro r hr
    rw [hresps] at hr
    rcases List.mem_append.mp hr with hr | hr
    · exact f.respOk (h.resp r hr)
    · simp at hr; subst hr
      apply f.respOk
      have hcm := claim_mem_log h (List.mem_of_getElem? hi) ho
      refine ⟨fun d hd => ?_, fun hd => by simp [bundleResp] at hd⟩
      simp only [bundleResp, Option.some.injEq] at hd
      subst hd
      refine ⟨rfl, rfl, h.width _ (List.mem_of_getElem? hi) _ _ hrq, he.mp, fun hf => ?_⟩
      have hf : eow = false := hf
      have h1 : ¬ σ.queue.length ≤ σ.ptr := by
        intro hh; rw [he.mpr hh] at hf; exact absurd hf (by simp)
      have h2 := h.tiled.mem hcm
      rcases h.nonempty _ hcm with h3 | h3 <;> omega

theorem inv_step {σ τ : Sys T} {a : Act} (h : Inv σ) (hs : Step σ a τ) : Inv τ := by
  have hle : ∀ c ∈ σ.log, c.s ≤ c.e ∧ c.e ≤ min σ.ptr σ.queue.length :=
    fun c hc => (h.tiled.mem hc).2
  have hget : ∀ {tid pc}, σ.pcs[tid]? = some pc → pc ∈ σ.pcs :=
    fun hh => List.mem_of_getElem? hh
  have frame0 : ∀ {τ : Sys T}, τ.queue = σ.queue → τ.strategy = σ.strategy → τ.ptr = σ.ptr →
      τ.phase = σ.phase → Frame σ τ := by
    intro τ h1 h2 h3 h4
    exact ⟨h1, h2, by simp [h3], by simp [h3], by simp [h4], fun hh => .inl (by simp [h4, hh])⟩
  cases hs with
  | claimTest tid tag n hi hn hp hs b hb c hc pc hpc =>
    obtain ⟨b1, b2, b3⟩ := byTestBounds_spec σ.queue.length n σ.ptr hn
    rw [← hb] at b1 b2 b3
    have cs : c.s = min σ.ptr σ.queue.length := by rw [hc]; exact b1
    have ce : c.e = min (σ.ptr + n) σ.queue.length := by rw [hc]; exact b2
    have hcl : pc.claim? = some c ∧ pc.req? = some (n, c) ∧
        (pc = .clamp n c ∧ σ.queue.length < σ.ptr + n ∨ pc = .assign n c c.s) := by
      rw [hpc]
      split
      · rename_i hb2
        have := b3.mp hb2
        exact ⟨rfl, rfl, .inl ⟨rfl, this⟩⟩
      · rw [afterBounds_claim (by omega) (by rw [h.cellsLen]; omega)]
        exact ⟨rfl, rfl, .inr rfl⟩
    refine inv_claim h ⟨rfl, rfl, ?_, ?_, id, .inl⟩ hi rfl rfl rfl rfl hcl.1 hcl.2.1 ?_ rfl cs ce
      (by omega) (by omega) ?_ ?_ ?_
    · intro _; show _ ≤ σ.ptr + n; omega
    · intro _; show _ ≤ σ.ptr + n; omega
    · rcases hcl.2.2 with ⟨h1, h2⟩ | h1
      · rw [h1]
        refine ⟨hs, ?_, ?_⟩
        · show σ.queue.length ≤ σ.ptr + n; omega
        · show c.e = σ.queue.length; omega
      · rw [h1]
        exact ⟨by omega, by omega⟩
    · refine ⟨fun _ => by omega, fun hh => ?_⟩
      rw [hs] at hh; exact absurd hh (by simp)
    · intro hs'; rw [show σ.strategy = _ from hs] at hs'; exact absurd hs' (by simp)
    · intro hd; rw [show σ.phase = _ from hp] at hd; exact absurd hd (by simp)
  | casLoad tid tag n hi hn hp hs =>
    exact inv_move h (frame0 rfl rfl rfl rfl) hi rfl rfl rfl rfl (by simp [Pc.req?])
      ⟨hs, Nat.le_refl _, hp⟩ rfl rfl h.group h.doneEnd
  | answerEmpty _ tag n hp =>
    constructor
    · exact h.cellsLen
    · exact h.tiled
    · exact h.nonempty
    · simpa [emptyResp] using h.perm
    · intro x hx; exact (frame0 rfl rfl rfl rfl).pcOk hx (h.pcs x hx)
    · exact h.width
    · exact h.group
    · exact h.doneEnd
    · intro r hr
      rcases List.mem_append.mp hr with hr | hr
      · exact (frame0 rfl rfl rfl rfl).respOk (h.resp r hr)
      · simp at hr; subst hr
        exact ⟨fun c hc => by simp [emptyResp] at hc, fun _ => ⟨rfl, rfl, hp⟩⟩
  | clamp _ tid n c hi =>
    obtain ⟨p1, p2, p3⟩ := h.pcs _ (hget hi)
    have hb := hle c (claim_mem_log h (hget hi) rfl)
    rw [afterBounds_claim hb.1 (by rw [h.cellsLen]; omega)]
    refine inv_move h ⟨rfl, rfl, fun _ => Nat.le_refl _, ?_, id, .inl⟩ hi rfl rfl rfl rfl
      (by simp [Pc.req?]) ⟨by omega, by omega⟩ rfl ?_ ?_ ?_
    · intro hg; rw [p1] at hg; exact absurd hg (by simp)
    · show min σ.queue.length _ = _; omega
    · intro hg; rw [show σ.strategy = _ from p1] at hg; exact absurd hg (by simp)
    · intro _; exact Nat.le_refl _
  | casNone _ tid tag n prev hi hg c hc =>
    obtain ⟨p1, p2, p3⟩ := h.pcs _ (hget hi)
    have hprev := groupClosure_none hg
    have hgr := h.group p1
    have hpe : prev = σ.queue.length := by omega
    have cs : c.s = σ.queue.length := by rw [hc]
    have ce : c.e = σ.queue.length := by rw [hc]; exact hpe
    rw [afterBounds_claim (by omega) (by rw [h.cellsLen]; omega)]
    refine inv_claim h (frame0 rfl rfl rfl rfl) hi rfl rfl rfl rfl rfl rfl ?_ rfl
      (by omega) ?_ (by omega) (by omega) ?_ h.group h.doneEnd
    · exact ⟨by omega, by omega⟩
    · show c.e = min σ.ptr _; omega
    · refine ⟨fun hh => ?_, fun _ => ⟨.inr (.inl (by omega)), .inr (.inl (by omega)), .inr ce,
        fun p h1 h2 => by omega⟩⟩
      rw [p1] at hh; exact absurd hh (by simp)
  | casOk _ tid tag n e hi hg c hc =>
    obtain ⟨p1, p2, p3⟩ := h.pcs _ (hget hi)
    have hb := groupClosure_bounds hg
    have cs : c.s = σ.ptr := by rw [hc]
    have ce : c.e = e := by rw [hc]
    rw [afterBounds_claim (by omega) (by rw [h.cellsLen]; omega)]
    refine inv_claim h ⟨rfl, rfl, ?_, ?_, id, .inl⟩ hi rfl rfl rfl rfl rfl rfl ?_ rfl
      (by omega) ?_ (by omega) (by omega) ?_ ?_ ?_
    · intro _; omega
    · intro _; show _ ≤ e; omega
    · exact ⟨by omega, by omega⟩
    · show c.e = min e _; omega
    · refine ⟨fun hh => ?_, fun _ => ?_⟩
      · rw [p1] at hh; exact absurd hh (by simp)
      · have hsp := groupClosure_spec hg
        rw [cs, ce]
        exact ⟨(h.group p1).2, hsp⟩
    · intro _; exact ⟨hb.2.2, (groupClosure_spec hg).1⟩
    · intro hd; rw [show σ.phase = _ from p3] at hd; exact absurd hd (by simp)
  | casRetry _ tid tag n prev hi =>
    obtain ⟨p1, p2, p3⟩ := h.pcs _ (hget hi)
    exact inv_move h (frame0 rfl rfl rfl rfl) hi rfl rfl rfl rfl (by simp [Pc.req?])
      ⟨p1, Nat.le_refl _, p3⟩ rfl rfl h.group h.doneEnd
  | assignCell _ tid n c i hi hlt =>
    obtain ⟨p1, p2⟩ := h.pcs _ (hget hi)
    exact inv_move h (frame0 rfl rfl rfl rfl) hi rfl rfl rfl rfl (by simp [Pc.req?])
      ⟨by omega, by omega⟩ (by simp) rfl h.group h.doneEnd
  | assignDone _ tid n c i hi hge =>
    exact inv_move h (frame0 rfl rfl rfl rfl) hi rfl rfl rfl rfl (by simp [Pc.req?])
      trivial rfl rfl h.group h.doneEnd
  | checkEnd _ tid n c hi hge =>
    exact inv_move h (frame0 rfl rfl rfl rfl) hi rfl rfl rfl rfl (by simp [Pc.req?])
      hge rfl rfl h.group h.doneEnd
  | checkMore _ tid n c hi hlt =>
    exact inv_answer h (frame0 rfl rfl rfl rfl) hi rfl rfl rfl rfl rfl rfl rfl
      ⟨by simp, by omega⟩ h.doneEnd
  | markServing _ tid n c hi hl hp =>
    have hw := h.pcs _ (hget hi)
    refine inv_answer h ⟨rfl, rfl, id, fun _ => Nat.le_refl _, ?_, fun _ => .inr hl⟩ hi
      rfl rfl rfl rfl rfl rfl rfl ⟨fun _ => hw, fun _ => rfl⟩ (fun _ => hw)
    intro _; simp
  | markOther _ tid n c hi hl hp =>
    have hw := h.pcs _ (hget hi)
    exact inv_answer h (frame0 rfl rfl rfl rfl) hi rfl rfl rfl rfl rfl rfl rfl
      ⟨fun _ => hw, fun _ => rfl⟩ h.doneEnd
  | partBegin _ tid tag hi hp =>
    exact inv_move h (frame0 rfl rfl rfl rfl) hi rfl rfl rfl rfl (by simp [Pc.req?])
      trivial rfl rfl h.group h.doneEnd
  | partStep _ tid tag k i acc t hi hc =>
    exact inv_move h (frame0 rfl rfl rfl rfl) hi rfl rfl rfl rfl (by simp [Pc.req?])
      trivial rfl rfl h.group h.doneEnd
  | partEnd _ tid tag k i acc hi hc =>
    exact inv_move h (frame0 rfl rfl rfl rfl) hi rfl rfl rfl rfl (by simp [Pc.req?])
      trivial rfl rfl h.group h.doneEnd
  | cancel _ hl hp =>
    have f : Frame σ { σ with phase := .cancelled } :=
      ⟨rfl, rfl, id, fun _ => Nat.le_refl _, fun _ => by simp, fun _ => .inr hl⟩
    constructor
    · exact h.cellsLen
    · exact h.tiled
    · exact h.nonempty
    · exact h.perm
    · intro x hx; exact f.pcOk hx (h.pcs x hx)
    · exact h.width
    · exact h.group
    · intro hd; exact absurd hd (by simp)
    · intro r hr; exact f.respOk (h.resp r hr)

theorem inv_run (queue : List (T × Nat)) (strategy : TestStrategy) (k : Nat) (acts : List Act) :
    Inv ((init queue strategy k).run acts) :=
  run_induction _ acts (inv_init queue strategy k) (fun _ _ _ h _ hs => inv_step h hs)

end Sys
end Abq
