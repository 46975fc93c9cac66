import Verif.Spec.ManifestStore

/-! # Helpers for C23 -/

namespace Abq.ManifestStore
open Spec
open Abq.Results (Bytes LoadOut load store OffloadConfig fileEligible)

variable {V : Type}

/-- The invariant: the file is a beginning of the document, and the remote copy is the document. -/
structure MInv (c : Codec V) (v : V) (s : Store) : Prop where
  disk : ∃ j, s.disk = (c.encode v).take j
  remote : ∀ r, s.remote = some r → r = c.encode v

theorem take_overwrite {α : Type} (l : List α) (j k : Nat) :
    l.take k ++ (l.take j).drop (l.take k).length = l.take (max j k) := by
  apply List.ext_getElem?
  intro i
  simp only [List.getElem?_append, List.getElem?_take, List.getElem?_drop, List.length_take]
  grind

theorem encode_pos (c : Codec V) (v : V) : 0 < (c.encode v).length := by
  apply Classical.byContradiction
  intro h
  have hz : c.encode v = [] := List.eq_nil_of_length_eq_zero (by omega)
  obtain ⟨e, he⟩ := c.suffix_fails v 1 (by omega)
  rw [hz] at he
  have := c.roundtrip v
  rw [hz] at this
  simp [this] at he

theorem minv_init (c : Codec V) (v : V) (noop : Bool) : MInv c v { noop, disk := [], remote := none } :=
  ⟨⟨0, by simp⟩, by simp⟩

theorem minv_load {c : Codec V} {v : V} {s : Store} (h : MInv c v s) (o : LoadOut) :
    (∃ j, (load s.remote s.disk o).2 = (c.encode v).take j) ∧
      ((load s.remote s.disk o).1 = true → (load s.remote s.disk o).2 = c.encode v) := by
  cases hr : s.remote with
  | none => simpa [load] using h.disk
  | some r =>
    have := h.remote r hr
    subst this
    cases o with
    | ok => exact ⟨⟨(c.encode v).length, by simp [load]⟩, by simp [load]⟩
    | refused => simpa [load] using h.disk
    | cut k => exact ⟨⟨k, by simp [load]⟩, by simp [load]⟩

theorem minv_step {c : Codec V} {v : V} {s : Store} (h : MInv c v s) (a : Act V)
    (ha : ∀ w o, a = .dump w o → w = v) :
    MInv c v (step c s a).1 ∧ ∀ w, (step c s a).2 = .fetched (some w) → w = v := by
  obtain ⟨⟨j, hj⟩, hrem⟩ := h
  cases a with
  | offload cfg now acc t =>
    refine ⟨?_, by simp [step]⟩
    simp only [step, offload]
    split
    · exact ⟨⟨0, by simp⟩, hrem⟩
    · exact ⟨⟨j, hj⟩, hrem⟩
  | dump w o =>
    have := ha w o rfl
    subst this
    refine ⟨?_, by simp [step]⟩
    have hov : ∀ k, overwrite s.disk ((c.encode w).take k) = (c.encode w).take (max j k) := by
      intro k
      rw [overwrite, hj, take_overwrite]
    have hfull : overwrite s.disk (c.encode w) = c.encode w := by
      have := hov (c.encode w).length
      rw [List.take_length] at this
      rw [this, List.take_of_length_le (by omega)]
    cases o with
    | ok =>
      simp only [step, dump, hfull]
      refine ⟨⟨(c.encode w).length, by simp⟩, ?_⟩
      intro r hr
      simp only [store] at hr
      split at hr
      · exact hrem r hr
      · exact (Option.some.inj hr).symm
    | unanswered =>
      simp only [step, dump, hfull]
      refine ⟨⟨(c.encode w).length, by simp⟩, ?_⟩
      intro r hr
      simp only [store] at hr
      split at hr
      · exact hrem r hr
      · exact (Option.some.inj hr).symm
    | openFails => exact ⟨⟨j, hj⟩, hrem⟩
    | cut k => exact ⟨⟨max j k, hov k⟩, hrem⟩
    | storeFails => exact ⟨⟨(c.encode w).length, by simp [step, dump, hfull]⟩, hrem⟩
  | fetch b o =>
    have hl := minv_load ⟨⟨j, hj⟩, hrem⟩ o
    simp only [step, fetch]
    cases b with
    | false => exact ⟨⟨⟨j, hj⟩, hrem⟩, by simp⟩
    | true =>
      simp only [if_true]
      by_cases hlt : j < (c.encode v).length
      · obtain ⟨k, -, hk⟩ := c.prefix_fails v j hlt
        rw [hj, hk]
        rw [hj] at hl
        dsimp only
        cases hok : (load s.remote ((c.encode v).take j) o).1 with
        | false => simp only [Bool.false_eq_true, if_false]; exact ⟨⟨hl.1, hrem⟩, by simp⟩
        | true =>
          have hl2 := hl.2 hok
          simp only [if_true, hl2]
          by_cases hk0 : k = 0
          · subst hk0
            simp only [List.drop_zero, c.roundtrip]
            refine ⟨⟨⟨(c.encode v).length, by simp⟩, hrem⟩, ?_⟩
            intro w hw
            simpa [eq_comm] using hw
          · obtain ⟨e, he⟩ := c.suffix_fails v k (by omega)
            rw [he]
            exact ⟨⟨⟨(c.encode v).length, by simp⟩, hrem⟩, by simp⟩
      · have : s.disk = c.encode v := by rw [hj, List.take_of_length_le (by omega)]
        rw [this, c.roundtrip]
        refine ⟨⟨⟨(c.encode v).length, by simp [this]⟩, hrem⟩, ?_⟩
        intro w hw
        simpa [eq_comm] using hw

theorem minv_run {c : Codec V} {v : V} (acts : List (Act V)) (hd : Dumps v acts) :
    ∀ s, MInv c v s → MInv c v (run c s acts).1 ∧
      ∀ w, Ev.fetched (some w) ∈ (run c s acts).2 → w = v := by
  induction acts with
  | nil => intro s h; exact ⟨h, by simp [run]⟩
  | cons a as ih =>
    intro s h
    have h1 := minv_step h a (fun w o e => hd w o (by simp [e]))
    have h2 := ih (fun w o e => hd w o (List.mem_cons_of_mem _ e)) _ h1.1
    refine ⟨h2.1, ?_⟩
    intro w hw
    simp only [run, List.mem_cons] at hw
    rcases hw with hw | hw
    · exact h1.2 w hw.symm
    · exact h2.2 w hw

/-- The remote copy is never taken away. -/
theorem remote_kept (c : Codec V) (s : Store) (a : Act V) (h : s.remote ≠ none) (hn : s.noop = false) :
    (step c s a).1.remote ≠ none ∧ (step c s a).1.noop = false := by
  cases a with
  | offload cfg now acc t => simp only [step, offload]; split <;> exact ⟨h, hn⟩
  | dump w o => cases o <;> simp [step, dump, store, h, hn]
  | fetch b o =>
    simp only [step, fetch]
    split
    · split
      · exact ⟨h, hn⟩
      · split
        · split <;> exact ⟨h, hn⟩
        · exact ⟨h, hn⟩
    · exact ⟨h, hn⟩

theorem remote_after_dump (c : Codec V) (v : V) (acts : List (Act V)) :
    ∀ s : Store, s.noop = false → (s.remote ≠ none ∨ Ev.dumped v true ∈ (run c s acts).2) →
      (run c s acts).1.remote ≠ none ∧ (run c s acts).1.noop = false := by
  induction acts with
  | nil => intro s hn h; simpa [run, hn] using h
  | cons a as ih =>
    intro s hn h
    simp only [run]
    have hkeep : (step c s a).1.noop = false := by
      cases a with
      | offload cfg now acc t => simp only [step, offload]; split <;> exact hn
      | dump w o => cases o <;> simp [step, dump, hn]
      | fetch b o =>
        simp only [step, fetch]
        split
        · split
          · exact hn
          · split
            · split <;> exact hn
            · exact hn
        · exact hn
    refine ih _ hkeep ?_
    rcases h with h | h
    · exact .inl (remote_kept c s a h hn).1
    · simp only [run, List.mem_cons] at h
      rcases h with h | h
      · left
        cases a with
        | offload cfg now acc t => simp [step] at h
        | fetch b o => simp [step] at h
        | dump w o => cases o <;> simp [step, dump, store, hn] at h ⊢
      · exact .inr h

theorem whole_step {c : Codec V} {v : V} {s : Store} (hd : s.disk = [] ∨ s.disk = c.encode v)
    (hr : ∀ r, s.remote = some r → r = c.encode v) (a : Act V) (ha : NoCut a)
    (hv : ∀ w o, a = .dump w o → w = v) :
    (step c s a).1.disk = [] ∨ (step c s a).1.disk = c.encode v := by
  cases a with
  | offload cfg now acc t => simp only [step, offload]; split <;> simp [hd]
  | dump w o =>
    have := hv w o rfl
    subst this
    have : overwrite s.disk (c.encode w) = c.encode w := by rcases hd with h | h <;> simp [overwrite, h]
    cases o with
    | cut k => exact absurd ha (by simp [NoCut])
    | ok => simp [step, dump, this]
    | openFails => simpa [step, dump] using hd
    | storeFails => simp [step, dump, this]
    | unanswered => simp [step, dump, this]
  | fetch b o =>
    cases b with
    | false => simpa [step, fetch] using hd
    | true =>
      simp only [step, fetch, if_true]
      split
      · exact hd
      · cases hrr : s.remote with
        | none => simpa [load] using hd
        | some r =>
          cases o with
          | cut k => exact absurd ha (by simp [NoCut])
          | refused => simpa [load] using hd
          | ok =>
            simp only [load, if_true, ← hr r hrr]
            split <;> simp

theorem decode_nil (c : Codec V) (v : V) : c.decode [] = .error 0 := by
  obtain ⟨k, hk, hk'⟩ := c.prefix_fails v 0 (encode_pos c v)
  simp only [List.take_zero] at hk'
  rw [hk', show k = 0 by omega]

/-- The remote holds `m`, and so does the file, unless it was emptied. -/
structure Holding (m : Bytes) (s : Store) : Prop where
  disk : s.disk = [] ∨ s.disk = m
  remote : s.remote = some m

theorem holding_step {c : Codec V} {m : Bytes} {s : Store} (h : Holding m s) (a : Act V) (ha : NoCut a) (hd : NotDump a) :
    Holding m (step c s a).1 := by
  obtain ⟨h1, h2⟩ := h
  cases a with
  | dump w o => exact hd.elim
  | offload cfg now acc t =>
    simp only [step, offload]
    split
    · exact ⟨.inl rfl, h2⟩
    · exact ⟨h1, h2⟩
  | fetch b o =>
    cases b with
    | false => simpa [step, fetch] using ⟨h1, h2⟩
    | true =>
      simp only [step, fetch, if_true]
      split
      · exact ⟨h1, h2⟩
      · cases o with
        | cut k => exact absurd ha (by simp [NoCut])
        | refused => simp only [load, h2]; exact ⟨h1, rfl⟩
        | ok =>
          simp only [load, h2, if_true]
          split <;> exact ⟨.inr rfl, rfl⟩

theorem holding_run {c : Codec V} {m : Bytes} (acts : List (Act V)) (ha : ∀ a ∈ acts, NoCut a ∧ NotDump a) :
    ∀ s, Holding m s → Holding m (run c s acts).1 := by
  induction acts with
  | nil => intro s h; exact h
  | cons a as ih =>
    intro s h
    exact ih (fun b hb => ha b (List.mem_cons_of_mem _ hb)) _
      (holding_step h a (ha a (List.mem_cons_self ..)).1 (ha a (List.mem_cons_self ..)).2)

/-- What is on the disk and in the remote is no document, and it does not help to read on: nothing is fetched. -/
theorem holding_nothing {c : Codec V} {m : Bytes} {e e' : Nat} (h0 : c.decode [] = .error 0) (hm : c.decode m = .error e)
    (hm' : c.decode (m.drop e) = .error e') (acts : List (Act V)) (ha : ∀ a ∈ acts, NoCut a ∧ NotDump a) :
    ∀ s, Holding m s → ∀ w, Ev.fetched (some w) ∉ (run c s acts).2 := by
  induction acts with
  | nil => intro s _ w h; cases h
  | cons a as ih =>
    intro s h w hw
    have h1 := ha a (List.mem_cons_self ..)
    simp only [run, List.mem_cons] at hw
    rcases hw with hw | hw
    · cases a with
      | dump w o => exact h1.2.elim
      | offload cfg now acc t => cases hw
      | fetch b o =>
        cases b with
        | false => simp [step, fetch] at hw
        | true =>
          rcases h.disk with hd | hd
          · cases o with
            | cut k => exact h1.1.elim
            | refused => simp [step, fetch, hd, h0, load, h.remote] at hw
            | ok => simp [step, fetch, hd, h0, load, h.remote, hm] at hw
          · cases o with
            | cut k => exact h1.1.elim
            | refused => simp [step, fetch, hd, hm, load, h.remote] at hw
            | ok => simp [step, fetch, hd, hm, load, h.remote, hm'] at hw
    · exact ih (fun b hb => ha b (List.mem_cons_of_mem _ hb)) _ (holding_step h a h1.1 h1.2) w hw

theorem run_append (c : Codec V) (s : Store) (as bs : List (Act V)) :
    run c s (as ++ bs) = ((run c (run c s as).1 bs).1, (run c s as).2 ++ (run c (run c s as).1 bs).2) := by
  induction as generalizing s with
  | nil => rfl
  | cons a as ih => simp only [List.cons_append, run, ih]

/-! A codec of numbers, to show that the assumptions can be met and where they end: `n` is written as an
opening bracket, `n` digits and a closing bracket. -/

def numEncode (n : Nat) : Bytes := 123 :: (List.replicate n 49 ++ [125])

/-- `i` is the number of bytes consumed, `n` the number of digits read. -/
def numDecodeFrom (i n : Nat) : Bytes → Except Nat Nat
  | [] => .error i
  | b :: bs =>
    if b = 49 then numDecodeFrom (i + 1) (n + 1) bs
    else if b = 125 then (if bs = [] then .ok n else .error (i + 2))
    else .error (i + 1)

def numDecode : Bytes → Except Nat Nat
  | [] => .error 0
  | b :: bs => if b = 123 then numDecodeFrom 1 0 bs else .error 1

theorem numDecodeFrom_replicate (m i n : Nat) (bs : Bytes) :
    numDecodeFrom i n (List.replicate m 49 ++ bs) = numDecodeFrom (i + m) (n + m) bs := by
  induction m generalizing i n with
  | zero => simp
  | succ m ih =>
    simp only [List.replicate_succ, List.cons_append, numDecodeFrom, if_true, ih]
    congr 1 <;> omega

def numCodec : Codec Nat where
  encode := numEncode
  decode := numDecode
  roundtrip := by
    intro n
    simp [numEncode, numDecode, numDecodeFrom_replicate, numDecodeFrom]
  prefix_fails := by
    intro n j h
    simp only [numEncode, List.length_cons, List.length_append, List.length_replicate,
      List.length_nil] at h
    cases j with
    | zero => exact ⟨0, by simp [numDecode]⟩
    | succ j =>
      refine ⟨j + 1, Nat.le_refl _, ?_⟩
      have : List.take j (List.replicate n (49 : UInt8) ++ [125]) = List.replicate j 49 ++ [] := by
        rw [List.take_append_of_le_length (by simp; omega), List.take_replicate]
        simp [Nat.min_eq_left (by omega : j ≤ n)]
      simp only [numEncode, List.take_succ_cons, numDecode, if_true, this, numDecodeFrom_replicate,
        numDecodeFrom]
      congr 1
      omega
  suffix_fails := by
    intro n k h
    cases k with
    | zero => omega
    | succ k =>
      simp only [numEncode, List.drop_succ_cons]
      by_cases hk : k ≤ n
      · rw [List.drop_append_of_le_length (by simpa using hk), List.drop_replicate]
        cases n - k with
        | zero => exact ⟨1, by simp [numDecode]⟩
        | succ m => exact ⟨1, by simp [List.replicate_succ, numDecode]⟩
      · exact ⟨0, by rw [List.drop_eq_nil_of_le (by simp; omega)]; rfl⟩

theorem numCodec_noTrailing : NoTrailing numCodec := by
  intro u v h
  simp only [numCodec, numEncode, List.length_cons, List.length_append, List.length_replicate, List.length_nil] at h ⊢
  refine ⟨v + 3, by omega, ?_⟩
  have hne : List.drop (v + (0 + 1) + 1) (123 :: (List.replicate u (49 : UInt8) ++ [125])) ≠ [] := by
    intro he
    have := congrArg List.length he
    simp only [List.length_drop, List.length_cons, List.length_append, List.length_replicate, List.length_nil] at this
    omega
  simp only [List.cons_append, List.append_assoc, numDecode, if_true, numDecodeFrom_replicate, numDecodeFrom, List.nil_append]
  rw [if_neg (by decide), if_neg hne]
  congr 1
  omega

end Abq.ManifestStore
