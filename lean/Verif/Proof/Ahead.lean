import Verif.Proof.MessageBuffer

/-! # How far the producer runs ahead -/

namespace Abq.MsgBuf
open Abq.MsgBuf.Spec

variable {α : Type}

/-- More is asked for only when half was returned. -/
def AskHalf (b : Buf α) : Prop := ∀ x, b.cons = .asking x → b.size / 2 ≤ b.processed

/-- At least half of a bundle, and all before it, was received. -/
def Begun (b : Buf α) (old : List (List α)) (A : List α) : Prop :=
  old.flatten.length + Nat.max 1 (A.length / 2) ≤ (items b.received).length

structure Drawn (b : Buf α) : Prop where
  half : AskHalf b
  excl : b.prod = .fetching → b.refill = 0
  past : ∀ old A B rest, b.fetched.filter (fun f => !f.isEmpty) = old ++ A :: B :: rest → Begun b old A
  next : b.prod = .fetching ∨ 0 < b.refill →
    ∀ old A, b.fetched.filter (fun f => !f.isEmpty) = old ++ [A] → Begun b old A

theorem take_half (b : Buf α) (x : α) : AskHalf (b.take x) := by
  intro y
  unfold Buf.take
  dsimp only
  split
  · rename_i h
    intro _
    simp only [Bool.and_eq_true, decide_eq_true_eq] at h
    exact h.2
  · intro h; cases h

theorem half_step (b : Buf α) (a : Act α) (h : AskHalf b) : AskHalf (step b a) := by
  cases a with
  | fetch r =>
    simp only [step, Buf.fetch]
    split
    · split <;> exact h
    · exact h
  | produce =>
    simp only [step, Buf.produce]
    split
    · split
      · exact h
      · split <;> exact h
    · split
      · exact h
      · split <;> exact h
    · exact h
  | startFlush =>
    simp only [step, Buf.startFlush]
    split
    · intro x hx; cases hx
    · exact h
  | consume =>
    simp only [step, Buf.consume]
    split
    · rename_i hc
      split
      · split
        · exact h
        · intro x hx; cases hx
      · intro x hx; cases hx
      · exact take_half _ _
      · intro x hx; dsimp only at hx; rw [hc] at hx; cases hx
    · rename_i hc
      split
      · split
        · exact h
        · intro x hx; cases hx
      · exact take_half _ _
      · intro x hx; dsimp only at hx; rw [hc] at hx; cases hx
    · split
      · intro x hx; cases hx
      · split
        · intro x hx; cases hx
        · exact h
    · rename_i hc
      split
      · split
        · exact h
        · intro x hx; cases hx
      · intro x hx; cases hx
      · intro x hx; dsimp only at hx; rw [hc] at hx; cases hx
    · exact h

theorem received_grows (b : Buf α) : b.received <+: b.consume.received := by
  simp only [Buf.consume, Buf.take]
  split
  · split
    · split <;> exact List.prefix_refl _
    · exact List.prefix_refl _
    · split
      · exact List.prefix_refl _
      · exact List.prefix_append _ _
    · exact List.prefix_append _ _
  · split
    · split <;> exact List.prefix_refl _
    · split
      · exact List.prefix_refl _
      · exact List.prefix_append _ _
    · exact List.prefix_refl _
  · split
    · exact List.prefix_append _ _
    · split
      · exact List.prefix_append _ _
      · exact List.prefix_refl _
  · split
    · split <;> exact List.prefix_refl _
    · exact List.prefix_refl _
    · exact List.prefix_refl _
  · exact List.prefix_refl _

theorem Begun.mono {b b' : Buf α} {old : List (List α)} {A : List α} (h : Begun b old A)
    (hr : b.received <+: b'.received) : Begun b' old A := by
  obtain ⟨t, ht⟩ := hr
  unfold Begun at *
  rw [← ht, items_append, List.length_append]
  omega

theorem consume_prod_fetched (b : Buf α) : b.consume.prod = b.prod ∧ b.consume.fetched = b.fetched := by
  simp only [Buf.consume, Buf.take]
  repeat' (first | (split) | exact ⟨rfl, rfl⟩)

theorem consume_refill (b : Buf α) (h : ∀ x, b.cons = .asking x → b.prod.alive = false) :
    b.consume.refill = b.refill := by
  cases hc : b.cons with
  | asking x =>
    have := h x hc
    simp [Buf.consume, hc, this]
  | ready =>
    simp only [Buf.consume, hc, Buf.take]
    repeat' (first | (split) | rfl)
  | needItem =>
    simp only [Buf.consume, hc, Buf.take]
    repeat' (first | (split) | rfl)
  | flushing acc =>
    simp only [Buf.consume, hc]
    repeat' (first | (split) | rfl)
  | flushed acc => simp only [Buf.consume, hc]
  | gone => simp only [Buf.consume, hc]

theorem flatten_nonempty (fs : List (List α)) :
    (fs.filter (fun f => !f.isEmpty)).flatten = fs.flatten := by
  induction fs with
  | nil => rfl
  | cons f fs ih =>
    cases f with
    | nil => simpa using ih
    | cons x xs => simp [ih]

theorem itemsM_frames (fs : List (List α)) : itemsM (fs.flatMap frame) = fs.flatten := by
  induction fs with
  | nil => rfl
  | cons f fs ih => simp [itemsM_append, itemsM_frame, ih]

theorem drawn_consume {b : Buf α} (o : Ok b) (d : Drawn b) : Drawn b.consume := by
  have hpf := consume_prod_fetched b
  have hgr := received_grows b
  by_cases hask : ∀ x, b.cons = .asking x → b.prod.alive = false
  · have hr := consume_refill b hask
    refine ⟨half_step b .consume d.half, ?_, ?_, ?_⟩
    · rw [hpf.1, hr]; exact d.excl
    · rw [hpf.2]; intro old A B rest h; exact (d.past old A B rest h).mono hgr
    · rw [hpf.1, hpf.2, hr]; intro hh old A h; exact (d.next hh old A h).mono hgr
  · obtain ⟨x, hx⟩ := Classical.not_forall.mp hask
    obtain ⟨hc, ha⟩ := Classical.not_imp.mp hx
    have ha : b.prod.alive = true := by simpa using ha
    have hr0 := ok_ask o x hc ha
    refine ⟨half_step b .consume d.half, ?_, ?_, ?_⟩
    · rw [hpf.1]
      intro hf
      cases o with
      | gone g => rw [g.gone] at hc; cases hc
      | flush acc f => rcases f.state with h | ⟨h, -⟩ <;> rw [h] at hc <;> cases hc
      | live cur frames old B l =>
        have htok := l.token ha
        obtain ⟨he, ⟨rest, hcur⟩, -⟩ := l.ask x hc
        have hB := (l.cnt rest hcur).2
        have : canAsk b.eligible B = 1 := by
          cases hB' : B with
          | nil => exact absurd hB' hB
          | cons y ys => simp [canAsk, he]
        rw [hf] at htok
        simp only [isFetching] at htok
        omega
    · rw [hpf.2]; intro old A B rest h; exact (d.past old A B rest h).mono hgr
    · rw [hpf.2]
      intro _ old' A hsp
      cases o with
      | gone g => rw [g.gone] at hc; cases hc
      | flush acc f => rcases f.state with h | ⟨h, -⟩ <;> rw [h] at hc <;> cases hc
      | live cur frames old B l =>
        have htok := l.token ha
        obtain ⟨he, ⟨rest, hcur⟩, hp1, hp2⟩ := l.ask x hc
        obtain ⟨hcnt, hB⟩ := l.cnt rest hcur
        have hca : canAsk b.eligible B = 1 := by
          cases hB' : B with
          | nil => exact absurd hB' hB
          | cons y ys => simp [canAsk, he]
        have hfr : frames = [] := List.length_eq_zero_iff.mp (by omega)
        have hsplit := l.split
        have hs1 : single B = [B] := by
          cases hB' : B with
          | nil => exact absurd hB' hB
          | cons y ys => simp [single]
        rw [hfr, hs1, List.append_nil, hsp] at hsplit
        obtain ⟨rfl, hAB⟩ := List.append_inj' hsplit rfl
        have hAB : A = B := by simpa using hAB
        subst hAB
        have htotal := congrArg (fun l => (items l).length) l.flow
        simp only [items_append, items_toRecv, items_expected, List.length_append] at htotal
        rw [← flatten_nonempty b.fetched, hsp, l.pend, itemsM_append, itemsM_frames, hfr, hcur, hc] at htotal
        have hlen : (itemsM (curMsgs (some rest) : List (Msg α))).length = rest.length := by
          simp [curMsgs, itemsM_append, itemsM_items, itemsM]
        simp only [List.length_append, hlen, List.flatten_append, List.flatten_cons, List.flatten_nil,
          List.append_nil, List.length_nil, held, Nat.add_zero] at htotal
        have h1 : (items [Recv.item x]).length = 1 := rfl
        have hrec : b.consume.received = b.received ++ [.item x] := by
          simp [Buf.consume, hc, ha, hr0]
        have hhalf := d.half x hc
        unfold Begun
        rw [hrec, items_append, List.length_append]
        have hsz := l.size
        rw [hsz] at hcnt hhalf
        have hm : Nat.max 1 (A.length / 2) ≤ b.processed := Nat.max_le.mpr ⟨hp1, hhalf⟩
        omega

theorem append_snoc_split {β : Type} {N old rest : List β} {x A B : β}
    (h : N ++ [x] = old ++ A :: B :: rest) :
    (N = old ++ [A]) ∨ ∃ rest', N = old ++ A :: B :: rest' := by
  rcases List.eq_nil_or_concat rest with rfl | ⟨r, y, rfl⟩
  · left
    have : N ++ [x] = (old ++ [A]) ++ [B] := by simpa using h
    exact (List.append_inj' this rfl).1
  · right
    have : N ++ [x] = (old ++ A :: B :: r) ++ [y] := by simpa using h
    exact ⟨r, (List.append_inj' this rfl).1⟩

theorem drawn_step {b : Buf α} (o : Ok b) (d : Drawn b) (a : Act α) : Drawn (step b a) := by
  have hhalf := half_step b a d.half
  cases a with
  | consume => exact drawn_consume o d
  | startFlush =>
    refine ⟨hhalf, ?_, ?_, ?_⟩ <;> simp only [step, Buf.startFlush] <;> split
    · exact d.excl
    · exact d.excl
    · exact d.past
    · exact d.past
    · exact d.next
    · exact d.next
  | produce =>
    cases hp : b.prod with
    | fetching => have : step b .produce = b := by simp [step, Buf.produce, hp]
                  rw [this]; exact d
    | done => have : step b .produce = b := by simp [step, Buf.produce, hp]
              rw [this]; exact d
    | sending q c =>
      cases q with
      | nil => have : step b .produce = b := by simp [step, Buf.produce, hp]
               rw [this]; exact d
      | cons m q =>
        have hns : ∀ q c, (afterSend q c : Prod α) ≠ .fetching := by
          intro q c
          cases q <;> cases c <;> simp [afterSend, afterBatch]
        by_cases h1 : b.cons.receives = true
        · by_cases h2 : b.chan.length < b.cap
          · have hst : step b .produce = { b with chan := b.chan ++ [m], prod := afterSend q c } := by
              simp [step, Buf.produce, hp, h1, h2]
            rw [hst] at hhalf ⊢
            exact ⟨hhalf, fun h => absurd h (hns q c), d.past,
              fun h => d.next (.inr (h.resolve_left (hns q c)))⟩
          · have hst : step b .produce = b := by simp [step, Buf.produce, hp, h1, h2]
            rw [hst]; exact d
        · have hst : step b .produce = { b with prod := .done } := by
            simp [step, Buf.produce, hp, h1]
          rw [hst] at hhalf ⊢
          exact ⟨hhalf, fun h => (nomatch h), d.past, fun h => d.next (.inr (h.resolve_left (nomatch ·)))⟩
    | waiting =>
      by_cases hr : 0 < b.refill
      · have hst : step b .produce = { b with refill := b.refill - 1, prod := .fetching } := by
          simp [step, Buf.produce, hp, hr]
        have hle : b.refill ≤ 1 := by
          cases o with
          | gone g => have := g.done; rw [hp] at this; cases this
          | flush acc f => exact f.refill
          | live cur frames old B l => exact l.refill
        rw [hst] at hhalf ⊢
        exact ⟨hhalf, fun _ => by dsimp only; omega, d.past, fun _ => d.next (.inr hr)⟩
      · by_cases ha : b.cons.asks = true
        · have hst : step b .produce = b := by simp [step, Buf.produce, hp, hr, ha]
          rw [hst]; exact d
        · have hst : step b .produce = { b with prod := .done } := by
            simp [step, Buf.produce, hp, hr, ha]
          rw [hst] at hhalf ⊢
          exact ⟨hhalf, fun h => (nomatch h), d.past, fun h => absurd (h.resolve_left (nomatch ·)) hr⟩
  | fetch r =>
    cases hp : b.prod with
    | sending q c => have : step b (.fetch r) = b := by simp [step, Buf.fetch, hp]
                     rw [this]; exact d
    | waiting => have : step b (.fetch r) = b := by simp [step, Buf.fetch, hp]
                 rw [this]; exact d
    | done => have : step b (.fetch r) = b := by simp [step, Buf.fetch, hp]
              rw [this]; exact d
    | fetching =>
      have hr0 := d.excl hp
      cases r with
      | none =>
        have hst : step b (.fetch none) = { b with prod := .done } := by simp [step, Buf.fetch, hp]
        rw [hst] at hhalf ⊢
        exact ⟨hhalf, fun h => (nomatch h), d.past, fun _ => d.next (.inl hp)⟩
      | some p =>
        obtain ⟨xs, c⟩ := p
        cases xs with
        | nil =>
          have hst : step b (.fetch (some ([], c))) =
              { b with prod := afterBatch c, fetched := b.fetched ++ [[]] } := by
            simp [step, Buf.fetch, hp]
          rw [hst] at hhalf ⊢
          have hf : (b.fetched ++ [[]]).filter (fun f : List α => !f.isEmpty) =
              b.fetched.filter (fun f => !f.isEmpty) := by simp
          refine ⟨hhalf, fun _ => hr0, ?_, ?_⟩
          · intro old A B rest h; exact d.past old A B rest (hf ▸ h)
          · intro _ old A h; exact d.next (.inl hp) old A (hf ▸ h)
        | cons x xs =>
          have hst : step b (.fetch (some (x :: xs, c))) =
              { b with prod := .sending (frame (x :: xs)) c, fetched := b.fetched ++ [x :: xs] } := by
            simp [step, Buf.fetch, hp]
          rw [hst] at hhalf ⊢
          have hf : (b.fetched ++ [x :: xs]).filter (fun f : List α => !f.isEmpty) =
              b.fetched.filter (fun f => !f.isEmpty) ++ [x :: xs] := by simp
          refine ⟨hhalf, fun h => (nomatch h), ?_, ?_⟩
          · intro old A B rest h
            rcases append_snoc_split (hf ▸ h) with h | ⟨rest', h⟩
            · exact d.next (.inl hp) old A h
            · exact d.past old A B rest' h
          · intro h
            have := h.resolve_left (nomatch ·)
            dsimp only at this
            omega

theorem drawn_new (cap : Nat) : Drawn (Buf.new α cap) := by
  refine ⟨fun x h => (nomatch h), fun _ => rfl, ?_, ?_⟩
  · intro old A B rest h
    have := congrArg List.length h
    simp [Buf.new] at this
  · intro _ old A h
    have := congrArg List.length h
    simp [Buf.new] at this

theorem drawn_run {b : Buf α} (o : Ok b) (d : Drawn b) (as : List (Act α))
    (h : ∀ a ∈ as, ProperAct a) : Drawn (run b as) := by
  induction as generalizing b with
  | nil => exact d
  | cons a as ih =>
    exact ih (ok_step o a (h a (by simp))) (drawn_step o d a) (fun x hx => h x (by simp [hx]))

/-- With bundles of at most `n`, this many were fetched and not received at most. -/
theorem drawn_bound {b : Buf α} (d : Drawn b) (n : Nat) (h : ∀ f ∈ b.fetched, f.length ≤ n) :
    b.fetched.flatten.length ≤ (items b.received).length + (2 * n - Nat.max 1 (n / 2)) := by
  rw [← flatten_nonempty]
  have h' : ∀ f ∈ b.fetched.filter (fun f => !f.isEmpty), f.length ≤ n ∧ 1 ≤ f.length := by
    intro f hf
    rw [List.mem_filter] at hf
    refine ⟨h f hf.1, ?_⟩
    cases f with
    | nil => simp at hf
    | cons x xs => simp
  have hm1 : 1 ≤ Nat.max 1 (n / 2) := Nat.le_max_left _ _
  have hm2 : ∀ k, 1 ≤ k → k ≤ n → k - Nat.max 1 (k / 2) ≤ n - Nat.max 1 (n / 2) := by
    intro k h1 hk
    have e1 : Nat.max 1 (k / 2) = if 1 ≤ k / 2 then k / 2 else 1 := by rfl
    have e2 : Nat.max 1 (n / 2) = if 1 ≤ n / 2 then n / 2 else 1 := by rfl
    rw [e1, e2]
    split <;> split <;> omega
  have hm3 : n = 0 ∨ Nat.max 1 (n / 2) ≤ n := by
    rcases Nat.eq_zero_or_pos n with h0 | h0
    · exact .inl h0
    · exact .inr (Nat.max_le.mpr ⟨h0, by omega⟩)
  rcases List.eq_nil_or_concat (b.fetched.filter (fun f => !f.isEmpty)) with hn | ⟨r, B, hn⟩
  · rw [hn]; simp
  · have hB := h' B (by rw [hn]; simp)
    rcases List.eq_nil_or_concat r with rfl | ⟨old, A, rfl⟩
    · rw [hn]
      simp only [List.nil_append, List.concat_eq_append, List.flatten_cons, List.flatten_nil,
        List.append_nil, List.length_append]
      omega
    · have hn' : b.fetched.filter (fun f => !f.isEmpty) = old ++ A :: B :: [] := by simpa using hn
      have hA := h' A (by rw [hn']; simp)
      have hb := d.past old A B [] hn'
      unfold Begun at hb
      have := hm2 A.length hA.2 hA.1
      have hAm : Nat.max 1 (A.length / 2) ≤ A.length := Nat.max_le.mpr ⟨hA.2, by omega⟩
      rw [hn']
      simp only [List.flatten_append, List.flatten_cons, List.flatten_nil, List.append_nil, List.length_append]
      omega

end Abq.MsgBuf
