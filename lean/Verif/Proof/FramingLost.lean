import Verif.Spec.Framing

/-! # Abandoning `next` between the size and the body of a message -/

namespace Abq.Wire
variable {T : Type}

/-- What was not read of the message is zero. -/
def Zeros (r : Reader) : Prop :=
  match r.msgSize with
  | none => r.msgBuf = []
  | some (n, _) => r.read ≤ r.msgBuf.length ∧ n ≤ r.msgBuf.length ∧ r.msgBuf.drop r.read = List.replicate (r.msgBuf.length - r.read) 0

theorem zeros_top {r : Reader} (h : match r.msgSize with
    | none => r.msgBuf = []
    | some (n, _) => r.read ≤ r.msgBuf.length ∧ (r.read = 0 ∨ n ≤ r.msgBuf.length) ∧
        r.msgBuf.drop r.read = List.replicate (r.msgBuf.length - r.read) 0) : Zeros r.top := by
  unfold Reader.top Zeros
  cases hm : r.msgSize with
  | none => simpa [hm] using h
  | some x =>
    obtain ⟨n, z⟩ := x
    simp only [hm] at h ⊢
    obtain ⟨h1, h2, h3⟩ := h
    by_cases h0 : r.read = 0
    · simp only [h0, if_true, List.length_append, List.length_replicate]
      rw [h0] at h3
      refine ⟨by omega, by omega, ?_⟩
      simp only [List.drop_zero, Nat.sub_zero] at h3 ⊢
      rw [← List.replicate_append_replicate, ← h3]
    · simp only [h0, if_false, hm]
      exact ⟨h1, h2.resolve_left h0, h3⟩

theorem drop_overwrite {l bs : List Byte} {i : Nat} (hi : i + bs.length ≤ l.length)
    (h : l.drop i = List.replicate (l.length - i) 0) :
    (overwrite l i bs).length = l.length ∧
    (overwrite l i bs).drop (i + bs.length) = List.replicate (l.length - (i + bs.length)) 0 := by
  have hlen : (overwrite l i bs).length = l.length := by
    simp only [overwrite, List.length_append, List.length_take, List.length_drop]; omega
  refine ⟨hlen, ?_⟩
  have : (l.take i ++ bs).length = i + bs.length := by simp only [List.length_append, List.length_take]; omega
  unfold overwrite
  rw [← this, List.drop_left, this, ← List.drop_drop, h, List.drop_replicate]
  congr 1
  omega

theorem want_le {s : Conn T} {k : Nat} : (s.stream.take (min k s.reader.want)).length ≤ s.reader.want := by
  simp only [List.length_take]; omega

theorem zeros_got (c : Codec T) {r : Reader} (h : Zeros r) (bs : List Byte) (hb : bs.length ≤ r.want) :
    (∃ e, (r.got c bs).2 = .failed e) ∨ Zeros (r.got c bs).1 := by
  unfold Reader.got
  cases hm : r.msgSize with
  | none =>
    simp only [Zeros, hm] at h
    simp only
    split
    · exact .inl ⟨_, rfl⟩
    · split
      · right
        dsimp only
        apply zeros_top
        simp [h]
      · right
        simp [Zeros, h]
  | some x =>
    obtain ⟨n, z⟩ := x
    simp only [Zeros, hm] at h
    obtain ⟨h1, h2, h3⟩ := h
    simp only [Reader.want, hm] at hb
    obtain ⟨d1, d2⟩ := drop_overwrite (bs := bs) (i := r.read) (by omega) h3
    simp only
    split
    · cases hd : decodeBody c z (overwrite r.msgBuf r.read bs) with
      | none => exact .inl ⟨_, rfl⟩
      | some m => exact .inr (by simp [Zeros])
    · right
      apply zeros_top
      simp only
      rw [d1]
      exact ⟨by omega, .inr h2, d2⟩

theorem zeros_record {s : Conn T} {x : Reader × Out T} (h : (∃ e, x.2 = .failed e) ∨ Zeros x.1) :
    (s.record x).err = none → s.err = none → Zeros (s.record x).reader := by
  intro he hs
  unfold Conn.record at he ⊢
  cases hx : x.2 with
  | more => simp only; exact h.resolve_left (by rintro ⟨e, h⟩; rw [hx] at h; cases h)
  | message m k => simp only; exact h.resolve_left (by rintro ⟨e, h⟩; rw [hx] at h; cases h)
  | failed e => simp [hx] at he

theorem zeros_step (c : Codec T) {s : Conn T} (h : s.err = none → Zeros s.reader) (a : Act) :
    (s.step c a).err = none → Zeros (s.step c a).reader := by
  cases he : s.err with
  | some e => cases a <;> simp [Conn.step, he]
  | none =>
    have hz := h he
    cases a with
    | read k =>
      simp only [Conn.step, he, Option.isSome_none, Bool.false_eq_true, if_false]
      split
      · intro h1
        exact zeros_record (zeros_got c hz [] (by simp)) h1 he
      · split
        · exact fun _ => hz
        · intro h1
          exact zeros_record (zeros_got c hz _ want_le) h1 rfl
    | eof =>
      simp only [Conn.step, he, Option.isSome_none, Bool.false_or]
      split
      · exact fun _ => hz
      · intro h1
        exact zeros_record (zeros_got c hz [] (by simp)) h1 he
    | ioError => simp [Conn.step, he]
    | expire =>
      simp only [Conn.step, he, Option.isSome_none, Bool.false_eq_true, if_false]
      split
      · exact fun _ => hz
      · simp
    | cancel =>
      simp only [Conn.step, he, Option.isSome_none, Bool.false_eq_true, if_false]
      intro _
      apply zeros_top
      unfold Zeros at hz
      cases hm : s.reader.msgSize with
      | none => simpa [hm] using hz
      | some x => simp only [hm] at hz ⊢; exact ⟨hz.1, .inr hz.2.1, hz.2.2⟩

theorem zeros_run (c : Codec T) (stream : List Byte) (as : List Act) :
    ((Conn.new stream : Conn T).run c as).err = none → Zeros ((Conn.new stream : Conn T).run c as).reader := by
  suffices ∀ s : Conn T, (s.err = none → Zeros s.reader) → (s.run c as).err = none → Zeros (s.run c as).reader from
    this _ fun _ => by simp [Conn.new, Reader.new, Zeros]
  induction as with
  | nil => exact fun s h => h
  | cons a as ih => exact fun s h => ih _ (zeros_step c h a)

/-- The buffer has become longer than the message. -/
def Broken (n : Nat) (s : Conn T) : Prop :=
  s.err = none → s.reader.msgSize = some (n, false) ∧ n < s.reader.msgBuf.length ∧ s.reader.read ≤ s.reader.msgBuf.length ∧
    s.reader.msgBuf.drop s.reader.read = List.replicate (s.reader.msgBuf.length - s.reader.read) 0

theorem broken_top {n : Nat} {r : Reader} (h : r.msgSize = some (n, false) ∧ n < r.msgBuf.length ∧ r.read ≤ r.msgBuf.length ∧
    r.msgBuf.drop r.read = List.replicate (r.msgBuf.length - r.read) 0) :
    r.top.msgSize = some (n, false) ∧ n < r.top.msgBuf.length ∧ r.top.read ≤ r.top.msgBuf.length ∧
    r.top.msgBuf.drop r.top.read = List.replicate (r.top.msgBuf.length - r.top.read) 0 := by
  obtain ⟨h1, h2, h3, h4⟩ := h
  unfold Reader.top
  simp only [h1]
  by_cases h0 : r.read = 0
  · simp only [h0, if_true, List.length_append, List.length_replicate]
    rw [h0] at h4
    refine ⟨trivial, by omega, by omega, ?_⟩
    simp only [List.drop_zero, Nat.sub_zero] at h4 ⊢
    rw [← List.replicate_append_replicate, ← h4]
  · simp only [h0, if_false, h1]
    exact ⟨trivial, h2, h3, h4⟩

theorem broken_got (c : Codec T) (hc : c.RefusesZeros) {n : Nat} {r : Reader} (h : r.msgSize = some (n, false) ∧ n < r.msgBuf.length ∧
    r.read ≤ r.msgBuf.length ∧ r.msgBuf.drop r.read = List.replicate (r.msgBuf.length - r.read) 0)
    (bs : List Byte) (hb : bs.length ≤ r.want) :
    (∃ e, (r.got c bs).2 = .failed e) ∨ ((r.got c bs).2 = .more ∧
      (r.got c bs).1.msgSize = some (n, false) ∧ n < (r.got c bs).1.msgBuf.length ∧ (r.got c bs).1.read ≤ (r.got c bs).1.msgBuf.length ∧
      (r.got c bs).1.msgBuf.drop (r.got c bs).1.read = List.replicate ((r.got c bs).1.msgBuf.length - (r.got c bs).1.read) 0) := by
  obtain ⟨h1, h2, h3, h4⟩ := h
  simp only [Reader.want, h1] at hb
  obtain ⟨d1, d2⟩ := drop_overwrite (bs := bs) (i := r.read) (by omega) h4
  unfold Reader.got
  simp only [h1]
  split
  · rename_i hn
    have hd : decodeBody c false (overwrite r.msgBuf r.read bs) = none := by
      simp only [decodeBody, Bool.false_eq_true, if_false]
      rw [← List.take_append_drop (r.read + bs.length) (overwrite r.msgBuf r.read bs), d2]
      exact hc _ _ (by omega)
    rw [hd]
    exact .inl ⟨_, rfl⟩
  · right
    refine ⟨rfl, ?_⟩
    apply broken_top
    simp only
    rw [d1]
    exact ⟨trivial, h2, by omega, d2⟩

theorem broken_record {n : Nat} {s : Conn T} {x : Reader × Out T} (h : (∃ e, x.2 = .failed e) ∨ (x.2 = .more ∧
      x.1.msgSize = some (n, false) ∧ n < x.1.msgBuf.length ∧ x.1.read ≤ x.1.msgBuf.length ∧
      x.1.msgBuf.drop x.1.read = List.replicate (x.1.msgBuf.length - x.1.read) 0)) :
    Broken n (s.record x) ∧ (s.record x).out = s.out := by
  unfold Conn.record
  rcases h with ⟨e, h⟩ | ⟨h, h'⟩
  · rw [h]
    exact ⟨fun he => by simp at he, rfl⟩
  · rw [h]
    exact ⟨fun _ => h', rfl⟩

theorem broken_step (c : Codec T) (hc : c.RefusesZeros) {n : Nat} {s : Conn T} (h : Broken n s) (a : Act) :
    Broken n (s.step c a) ∧ (s.step c a).out = s.out := by
  cases he : s.err with
  | some e => cases a <;> simp [Conn.step, he] <;> exact h
  | none =>
    have hz := h he
    cases a with
    | read k =>
      simp only [Conn.step, he, Option.isSome_none, Bool.false_eq_true, if_false]
      split
      · exact broken_record (broken_got c hc hz [] (by simp))
      · split
        · exact ⟨h, rfl⟩
        · exact broken_record (broken_got c hc hz _ want_le)
    | eof =>
      simp only [Conn.step, he, Option.isSome_none, Bool.false_or]
      split
      · exact ⟨h, rfl⟩
      · exact broken_record (broken_got c hc hz [] (by simp))
    | ioError =>
      simp only [Conn.step, he, Option.isSome_none, Bool.false_eq_true, if_false]
      exact ⟨fun e => (by simp at e), trivial⟩
    | expire =>
      simp only [Conn.step, he, Option.isSome_none, Bool.false_eq_true, if_false]
      split
      · exact ⟨h, rfl⟩
      · exact ⟨fun e => (by simp at e), rfl⟩
    | cancel =>
      simp only [Conn.step, he, Option.isSome_none, Bool.false_eq_true, if_false]
      exact ⟨fun _ => broken_top hz, trivial⟩

theorem broken_run (c : Codec T) (hc : c.RefusesZeros) {n : Nat} (as : List Act) :
    ∀ s : Conn T, Broken n s → (s.run c as).out = s.out := by
  induction as with
  | nil => exact fun s _ => rfl
  | cons a as ih =>
    intro s h
    obtain ⟨h1, h2⟩ := broken_step c hc h a
    exact (ih _ h1).trans h2

theorem lost_for_ever (c : Codec T) (hc : c.RefusesZeros) (stream : List Byte) (as bs : List Act) (n : Nat) (hn : 0 < n)
    (hs : ((Conn.new stream : Conn T).run c as).reader.msgSize = some (n, false))
    (hr : ((Conn.new stream : Conn T).run c as).reader.read = 0) :
    ((Conn.new stream : Conn T).run c (as ++ .cancel :: bs)).out = ((Conn.new stream : Conn T).run c as).out := by
  have hz := zeros_run c stream as
  rw [Conn.run, List.foldl_append, List.foldl_cons, ← Conn.run, ← Conn.run]
  generalize (Conn.new stream : Conn T).run c as = s at *
  cases he : s.err with
  | some e =>
    have : ∀ bs : List Act, (s.run c bs) = s := by
      intro bs
      induction bs with
      | nil => rfl
      | cons a bs ih =>
        have : s.step c a = s := by cases a <;> simp [Conn.step, he]
        rw [Conn.run, List.foldl_cons, this]
        exact ih
    have h2 : s.step c .cancel = s := by simp [Conn.step, he]
    rw [h2, this]
  | none =>
    have hz := hz he
    simp only [Zeros, hs, hr] at hz
    have hb : Broken n (s.step c .cancel) := by
      intro _
      simp only [Conn.step, he, Option.isSome_none, Bool.false_eq_true, if_false, Reader.top, hs, hr, if_true,
        List.length_append, List.length_replicate]
      refine ⟨trivial, by omega, by omega, ?_⟩
      have := hz.2.2
      simp only [List.drop_zero, Nat.sub_zero] at this ⊢
      rw [← List.replicate_append_replicate, ← this]
    rw [broken_run c hc bs _ hb]
    simp [Conn.step, he]
end Abq.Wire
