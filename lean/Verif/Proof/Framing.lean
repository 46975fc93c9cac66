import Verif.Spec.Framing

/-! Lemmas about messages on the wire. -/

namespace Abq.Wire

variable {T : Type}

theorem fromBe_toBe (w : Nat) (h : w < 2 ^ 32) : fromBeBytes (toBeBytes w) = w := by
  simp only [fromBeBytes, toBeBytes, List.foldl_cons, List.foldl_nil]
  omega

/-- The four bytes of size of a message. -/
def hdr (c : Codec T) (z : Bool) (m : T) : List Byte := (frame c z m).take 4

theorem hdr_length (c : Codec T) (z : Bool) (m : T) : (hdr c z m).length = 4 := by
  simp [hdr, frame, toBeBytes]

theorem frame_eq (c : Codec T) (z : Bool) (m : T) : frame c z m = hdr c z m ++ body c z m := by
  simp [hdr, body]

theorem frame_length (c : Codec T) (z : Bool) (m : T) : (frame c z m).length = 4 + (body c z m).length := by
  rw [frame_eq, List.length_append, hdr_length]

/-- Whether the message is compressed. -/
def comp (c : Codec T) (z : Bool) (m : T) : Bool := (messageBytes c z largeMessageSize m).2

theorem body_eq (c : Codec T) (z : Bool) (m : T) : body c z m = (messageBytes c z largeMessageSize m).1 := by
  simp [body, frame, toBeBytes]

theorem hdr_eq (c : Codec T) (z : Bool) (m : T) : hdr c z m =
    toBeBytes (if comp c z m then negI32 (asI32 (body c z m).length) else asI32 (body c z m).length) := by
  rw [body_eq]; rfl

theorem body_ne (c : Codec T) (hc : c.Lawful) (z : Bool) (m : T) : 0 < (body c z m).length := by
  rw [body_eq, List.length_pos_iff]
  simp only [messageBytes]
  split
  · exact hc.gzNe _
  · exact hc.jsonNe _

theorem body_lt (c : Codec T) (z : Bool) (m : T) (h : Fits c z m) : (body c z m).length < 2 ^ 31 := by
  rw [body_eq]
  unfold Fits at h
  by_cases hz : z = true ∧ (c.toVec m).length > 1000000
  · rw [if_pos hz] at h
    have : messageBytes c z largeMessageSize m = (c.gzip (c.toVec m), true) := by
      simp [messageBytes, largeMessageSize, hz]
    rw [this]; exact h
  · rw [if_neg hz] at h
    have : messageBytes c z largeMessageSize m = (c.toVec m, false) := by
      have : (z && decide ((c.toVec m).length > largeMessageSize)) = false := by
        cases z
        · rfl
        · simp [largeMessageSize] at hz ⊢; omega
      simp only [messageBytes, this, Bool.false_eq_true, if_false]
    rw [this]; exact h

theorem decode_body (c : Codec T) (hc : c.Lawful) (z : Bool) (m : T) :
    decodeBody c (comp c z m) (body c z m) = some m := by
  rw [body_eq]
  simp only [comp, messageBytes]
  split
  · simp [decodeBody, hc.gz, hc.json]
  · simp [decodeBody, hc.json]

theorem hdr_size (c : Codec T) (hc : c.Lawful) (z : Bool) (m : T) (h : Fits c z m) :
    unsignedAbs (fromBeBytes (hdr c z m)) = (body c z m).length ∧ isNegative (fromBeBytes (hdr c z m)) = comp c z m := by
  have h1 := body_ne c hc z m
  have h2 := body_lt c z m h
  rw [hdr_eq]
  generalize (body c z m).length = n at h1 h2
  rw [fromBe_toBe]
  · cases comp c z m
    · have e : asI32 n = n := by unfold asI32; omega
      have e2 : isNegative n = false := by simp [isNegative]; omega
      simp [e, unsignedAbs, e2]
    · have e : negI32 (asI32 n) = 2 ^ 32 - n := by unfold asI32 negI32; omega
      have e2 : isNegative (2 ^ 32 - n) = true := by simp [isNegative]; omega
      simp only [if_true, e, unsignedAbs, e2, and_true]
      omega
  · cases comp c z m <;> simp [asI32, negI32] <;> omega

theorem frames_cons (c : Codec T) (z : Bool) (m : T) (ms : List T) :
    frames c z (m :: ms) = hdr c z m ++ (body c z m ++ frames c z ms) := by
  rw [frames, List.map_cons, List.flatten_cons, frame_eq, List.append_assoc]; rfl

/-! ## The incremental reader -/

/-- What the reader knows of the bytes `p` it has consumed of the message that is first in `rest`. -/
inductive At (c : Codec T) (z : Bool) (rest : List T) : List Byte → Reader → Prop
  | header (p sb : List Byte) (hsb : sb.length = 4) (hp : p.length < 4) (ht : sb.take p.length = p) :
      At c z rest p ⟨sb, none, [], p.length⟩
  | body (m : T) (rest' : List T) (q sb : List Byte) (hr : rest = m :: rest') (hsb : sb.length = 4)
      (hq : q.length < (body c z m).length) :
      At c z rest (hdr c z m ++ q) ⟨sb, some ((Wire.body c z m).length, comp c z m),
        q ++ List.replicate ((Wire.body c z m).length - q.length) 0, q.length⟩

/-- The state of a connection over which `ms` are sent. -/
structure Good (c : Codec T) (z : Bool) (ms : List T) (s : Conn T) (done rest : List T) (p : List Byte) : Prop where
  split : ms = done ++ rest
  out : s.out = done.map fun m => (m, (body c z m).length)
  stream : p ++ s.stream = frames c z rest
  err : s.err = none
  reader : At c z rest p s.reader

theorem at_len (c : Codec T) (z : Bool) (rest : List T) (p : List Byte) (r : Reader) (h : At c z rest p r) :
    p = [] ∧ rest = [] ∨ p.length < 4 ∨ ∃ m rest', rest = m :: rest' ∧ p.length < (frame c z m).length := by
  cases h with
  | header sb p hsb hp ht => exact .inr (.inl (by assumption))
  | body m rest' q sb hr hsb hq =>
    refine .inr (.inr ⟨m, rest', hr, ?_⟩)
    rw [frame_length, List.length_append, hdr_length]; omega

theorem take_append_of (p s f : List Byte) (n : Nat) (x : List Byte) (h : p ++ s = f ++ x) (hn : p.length + n = f.length) :
    p ++ s.take n = f ∧ s.drop n = x := by
  have h1 : (p ++ s).take (p.length + n) = f := by rw [h, hn]; simp
  have h2 : (p ++ s).drop (p.length + n) = x := by rw [h, hn]; simp
  rw [List.take_length_add_append] at h1
  rw [List.drop_length_add_append] at h2
  exact ⟨h1, h2⟩

theorem frames_nil_of (c : Codec T) (z : Bool) (rest : List T) (h : frames c z rest = []) : rest = [] := by
  cases rest with
  | nil => rfl
  | cons m ms =>
    rw [frames_cons] at h
    have : (hdr c z m).length = 0 := by
      have := congrArg List.length h; simp at this; simp [this]
    rw [hdr_length] at this; omega

theorem good_read (c : Codec T) (hc : c.Lawful) (z : Bool) (ms done rest : List T) (p : List Byte) (s : Conn T)
    (hf : ∀ m ∈ ms, Fits c z m) (h : Good c z ms s done rest p) (k : Nat) :
    (k = 0 ∨ s.stream = [] → s.step c (.read k) = s) ∧
    (k ≠ 0 → s.stream ≠ [] → (∃ done' rest' p', Good c z ms (s.step c (.read k)) done' rest' p') ∧
      (s.step c (.read k)).stream.length < s.stream.length) := by
  obtain ⟨h1, h2, h3, h4, h5⟩ := h
  have he : s.err.isSome = false := by rw [h4]; rfl
  obtain ⟨r, stream, out, err⟩ := s
  dsimp only at h2 h3 h4 h5 he
  subst h4
  cases h5 with
  | header _ sb hsb hp ht =>
    have hw : (⟨sb, none, [], p.length⟩ : Reader).want = 4 - p.length := rfl
    constructor
    · intro hk
      simp only [Conn.step]
      rw [hw]
      have : ¬ (4 - p.length = 0) := by omega
      simp only [Option.isSome_none, Bool.false_eq_true, if_false, this]
      rw [if_pos]
      rcases hk with hk | hk
      · subst hk; simp
      · subst hk; simp
    · intro hk hs
      have hpos : 0 < stream.length := List.length_pos_iff.mpr hs
      have hne : ¬ ((stream.take (min k (4 - p.length))).length = 0) := by
        rw [List.length_take]; omega
      -- the rest is not empty
      have hrest : ∃ m rest', rest = m :: rest' := by
        cases rest with
        | nil => simp [frames] at h3; exact absurd h3.2 hs
        | cons m rest' => exact ⟨m, rest', rfl⟩
      obtain ⟨m, rest', rfl⟩ := hrest
      have hfm : Fits c z m := hf m (by rw [h1]; simp)
      have h3' := h3
      rw [frames_cons] at h3'
      have step : (⟨⟨sb, none, [], p.length⟩, stream, out, none⟩ : Conn T).step c (.read k) =
          (⟨⟨sb, none, [], p.length⟩, stream.drop (min k (4 - p.length)), out, none⟩ : Conn T).record
            (Reader.got c ⟨sb, none, [], p.length⟩ (stream.take (min k (4 - p.length)))) := by
        simp only [Conn.step, hw]
        have : ¬ (4 - p.length = 0) := by omega
        simp only [Option.isSome_none, Bool.false_eq_true, if_false, this]
        rw [if_neg hne]
      rw [step]
      generalize hn : min k (4 - p.length) = n at *
      have hnle : n ≤ 4 - p.length := by omega
      have hdrop : (stream.drop n).length < stream.length := by
        rw [List.length_drop]; rw [List.length_take] at hne; omega
      have hover : overwrite sb p.length (stream.take n) = p ++ stream.take n ++ sb.drop (p.length + (stream.take n).length) := by
        simp only [overwrite, ht]
      have hcut := List.take_append_drop n stream
      by_cases h4 : p.length + (stream.take n).length = 4
      · have hn4 : p.length + n = (hdr c z m).length := by
          rw [hdr_length]; rw [List.length_take] at h4; omega
        obtain ⟨a1, a2⟩ := take_append_of p stream (hdr c z m) n _ h3' hn4
        have hsb' : overwrite sb p.length (stream.take n) = hdr c z m := by
          rw [hover, h4, List.drop_eq_nil_of_le (by omega), List.append_nil, a1]
        obtain ⟨e1, e2⟩ := hdr_size c hc z m hfm
        have hb := body_ne c hc z m
        have hgot : Reader.got c ⟨sb, none, [], p.length⟩ (stream.take n) =
            (⟨hdr c z m, some ((body c z m).length, comp c z m), List.replicate (body c z m).length 0, 0⟩, .more) := by
          simp only [Reader.got, if_neg hne, h4, hsb', e1, e2, Reader.top, if_true, List.nil_append]
        rw [hgot]
        refine ⟨⟨done, m :: rest', hdr c z m, h1, h2, ?_, rfl, ?_⟩, hdrop⟩
        · show hdr c z m ++ stream.drop n = _
          rw [a2, frames_cons]
        · have := At.body (c := c) (z := z) (rest := m :: rest') m rest' [] (hdr c z m) rfl (hdr_length c z m) hb
          simpa [Conn.record] using this
      · have hgot : Reader.got c ⟨sb, none, [], p.length⟩ (stream.take n) =
            (⟨overwrite sb p.length (stream.take n), none, [], p.length + (stream.take n).length⟩, .more) := by
          simp only [Reader.got, if_neg hne, h4, if_false]
        rw [hgot]
        refine ⟨⟨done, m :: rest', p ++ stream.take n, h1, h2, ?_, rfl, ?_⟩, hdrop⟩
        · show p ++ stream.take n ++ stream.drop n = _
          rw [List.append_assoc, hcut, h3]
        · have hl : (p ++ stream.take n).length = p.length + (stream.take n).length := List.length_append
          have := At.header (c := c) (z := z) (rest := m :: rest') (p ++ stream.take n)
            (overwrite sb p.length (stream.take n)) ?_ ?_ ?_
          · rw [hl] at this; exact this
          · rw [hover]; simp only [List.length_append, List.length_drop]
            rw [List.length_take] at h4 ⊢; omega
          · rw [hl]; rw [List.length_take] at h4 ⊢; omega
          · rw [hover]; exact List.take_left
  | body m rest' q sb hr hsb hq =>
    subst hr
    generalize hr : (⟨sb, some ((body c z m).length, comp c z m),
      q ++ List.replicate ((body c z m).length - q.length) 0, q.length⟩ : Reader) = r
    have hw : r.want = (body c z m).length - q.length := by
      subst hr; simp [Reader.want]
    have hwp : ¬ ((body c z m).length - q.length = 0) := by omega
    constructor
    · intro hk
      simp only [Conn.step]
      rw [hw]
      simp only [Option.isSome_none, Bool.false_eq_true, if_false, hwp]
      rw [if_pos]
      rcases hk with hk | hk
      · subst hk; simp
      · subst hk; simp
    · intro hk hs
      have hpos : 0 < stream.length := List.length_pos_iff.mpr hs
      have hne : ¬ ((stream.take (min k ((body c z m).length - q.length))).length = 0) := by
        rw [List.length_take]; omega
      have step : (⟨r, stream, out, none⟩ : Conn T).step c (.read k) =
          (⟨r, stream.drop (min k ((body c z m).length - q.length)), out, none⟩ : Conn T).record
            (Reader.got c r (stream.take (min k ((body c z m).length - q.length)))) := by
        simp only [Conn.step, hw]
        simp only [Option.isSome_none, Bool.false_eq_true, if_false, hwp]
        rw [if_neg hne]
      rw [step]
      rw [frames_cons, List.append_assoc] at h3
      have h3' : q ++ stream = body c z m ++ frames c z rest' := List.append_cancel_left h3
      generalize hn : min k ((body c z m).length - q.length) = n at *
      have hnle : n ≤ (body c z m).length - q.length := by omega
      have hdrop : (stream.drop n).length < stream.length := by
        rw [List.length_drop]; rw [List.length_take] at hne; omega
      have hcut := List.take_append_drop n stream
      have htl : (stream.take n).length ≤ (body c z m).length - q.length := by rw [List.length_take]; omega
      have hover : overwrite (q ++ List.replicate ((body c z m).length - q.length) 0) q.length (stream.take n) =
          q ++ stream.take n ++ List.replicate ((body c z m).length - (q.length + (stream.take n).length)) 0 := by
        simp only [overwrite, List.take_left', List.drop_length_add_append, List.drop_replicate]
        congr 2; omega
      by_cases h4 : q.length + (stream.take n).length = (body c z m).length
      · have hn4 : q.length + n = (body c z m).length := by
          rw [List.length_take] at h4; omega
        obtain ⟨a1, a2⟩ := take_append_of q stream (body c z m) n _ h3' hn4
        have hgot : Reader.got c r (stream.take n) =
            (⟨sb, none, [], 0⟩, .message m (body c z m).length) := by
          subst hr
          simp only [Reader.got, h4, if_true]
          rw [hover, h4, Nat.sub_self, List.replicate_zero, List.append_nil, a1, decode_body c hc]
        rw [hgot]
        refine ⟨⟨done ++ [m], rest', [], by rw [h1]; simp, ?_, ?_, rfl, ?_⟩, hdrop⟩
        · simp [Conn.record, h2]
        · simpa [Conn.record] using a2
        · exact At.header [] sb hsb (by simp) (by simp)
      · have hgot : Reader.got c r (stream.take n) =
            (⟨sb, some ((body c z m).length, comp c z m),
              (q ++ stream.take n) ++ List.replicate ((body c z m).length - (q ++ stream.take n).length) 0,
              (q ++ stream.take n).length⟩, .more) := by
          subst hr
          have hz : ¬ (q.length + (stream.take n).length = 0) := by omega
          simp only [Reader.got, h4, if_false, Reader.top, hz]
          rw [hover, List.length_append]
        rw [hgot]
        refine ⟨⟨done, m :: rest', hdr c z m ++ (q ++ stream.take n), h1, h2, ?_, rfl, ?_⟩, hdrop⟩
        · show hdr c z m ++ (q ++ stream.take n) ++ stream.drop n = _
          rw [List.append_assoc, List.append_assoc, hcut, h3', frames_cons]
        · exact At.body m rest' (q ++ stream.take n) sb rfl hsb (by rw [List.length_append]; omega)

theorem good_cancel (c : Codec T) (z : Bool) (ms done rest : List T) (p : List Byte) (s : Conn T)
    (h : Good c z ms s done rest p) (ha : ¬ AtBody s.reader) : s.step c .cancel = s := by
  obtain ⟨h1, h2, h3, h4, h5⟩ := h
  obtain ⟨r, stream, out, err⟩ := s
  dsimp only at h4 h5 ha
  subst h4
  have : r.top = r := by
    cases h5 with
    | header => rfl
    | body m rest' q sb hr hsb hq =>
      have : ¬ (q.length = 0) := fun e => ha ⟨rfl, e⟩
      simp only [Reader.top, this, if_false]
  simp [Conn.step, this]

theorem good_new (c : Codec T) (z : Bool) (ms : List T) : Good c z ms (Conn.new (frames c z ms)) [] ms [] :=
  ⟨rfl, rfl, rfl, rfl, At.header [] [0, 0, 0, 0] rfl (by simp) (by simp)⟩

theorem good_run (c : Codec T) (hc : c.Lawful) (z : Bool) (ms : List T) (hf : ∀ m ∈ ms, Fits c z m) (as : List Act) :
    ∀ (s : Conn T) (done rest : List T) (p : List Byte), Good c z ms s done rest p → Calm c s as →
    ∃ done' rest' p', Good c z ms (s.run c as) done' rest' p' := by
  induction as with
  | nil => intro s done rest p h _; exact ⟨done, rest, p, h⟩
  | cons a as ih =>
    intro s done rest p h hcalm
    obtain ⟨⟨c1, c2, c3, c4⟩, hcalm'⟩ := hcalm
    have : ∃ done' rest' p', Good c z ms (s.step c a) done' rest' p' := by
      cases a with
      | ioError => exact absurd rfl c1
      | eof => exact absurd rfl c2
      | cancel => rw [good_cancel c z ms done rest p s h (c4 rfl)]; exact ⟨_, _, _, h⟩
      | expire =>
        have he := h.err
        have : s.step c .expire = s := by simp [Conn.step, c3 rfl]
        rw [this]; exact ⟨_, _, _, h⟩
      | read k =>
        obtain ⟨g1, g2⟩ := good_read c hc z ms done rest p s hf h k
        by_cases hk : k = 0
        · rw [g1 (.inl hk)]; exact ⟨_, _, _, h⟩
        · by_cases hs : s.stream = []
          · rw [g1 (.inr hs)]; exact ⟨_, _, _, h⟩
          · exact (g2 hk hs).1
    obtain ⟨d', r', p', h'⟩ := this
    exact ih _ d' r' p' h' hcalm'

/-! ### Faults -/

/-- The reader waits for a body of which nothing will come. -/
structure Stuck (s : Conn T) : Prop where
  stream : s.stream = []
  read : s.reader.read = 0
  size : ∃ n b, s.reader.msgSize = some (n, b) ∧ 0 < n ∧ n ≤ s.reader.msgBuf.length

/-- What holds of a connection with faults. -/
def Safe (c : Codec T) (z : Bool) (ms : List T) (s : Conn T) : Prop :=
  (∃ done rest p, Good c z ms s done rest p) ∨
  ((s.err.isSome = true ∨ Stuck s) ∧ ∃ done rest, ms = done ++ rest ∧ s.out = done.map fun m => (m, (body c z m).length))

theorem top_stuck (s : Conn T) (h : Stuck s) (r : Reader) (hr : r = s.reader.top) : Stuck { s with reader := r } := by
  obtain ⟨h1, h2, n, b, h3, h4, h5⟩ := h
  subst hr
  simp only [Reader.top, h3, h2, if_true]
  exact ⟨h1, rfl, n, b, rfl, h4, by simp⟩

theorem stuck_step (c : Codec T) (s : Conn T) (h : Stuck s) (he : s.err = none) (a : Act) :
    (s.step c a).out = s.out ∧ ((s.step c a).err.isSome = true ∨ Stuck (s.step c a)) := by
  have h' := h
  obtain ⟨h1, h2, n, b, h3, h4, h5⟩ := h
  have hgot : s.reader.got c [] = (({ s.reader with msgBuf := s.reader.msgBuf } : Reader).top, (Out.more : Out T)) := by
    simp only [Reader.got, h3, h2, overwrite, List.take_zero, List.nil_append, List.length_nil, Nat.add_zero,
      List.drop_zero]
    rw [if_neg (by omega)]
  have hself : ({ s.reader with msgBuf := s.reader.msgBuf } : Reader) = s.reader := rfl
  rw [hself] at hgot
  cases a with
  | read k =>
    have hw : s.reader.want = s.reader.msgBuf.length := by simp [Reader.want, h3, h2]
    have : s.step c (.read k) = s := by
      simp only [Conn.step, he, hw]
      have : ¬ (s.reader.msgBuf.length = 0) := by omega
      simp [this, h1]
    rw [this]; exact ⟨rfl, .inr h'⟩
  | eof =>
    have : s.step c .eof = { s with reader := s.reader.top } := by
      simp only [Conn.step, he, h1, hgot, Conn.record]; simp
    rw [this]; exact ⟨rfl, .inr (top_stuck s h' _ rfl)⟩
  | ioError => simp [Conn.step, he]
  | expire => simp [Conn.step, he, h3]
  | cancel =>
    have : s.step c .cancel = { s with reader := s.reader.top } := by simp [Conn.step, he]
    rw [this]; exact ⟨rfl, .inr (top_stuck s h' _ rfl)⟩

theorem good_eof (c : Codec T) (hc : c.Lawful) (z : Bool) (ms done rest : List T) (p : List Byte) (s : Conn T)
    (h : Good c z ms s done rest p) : s.step c .eof = s ∨
    ((s.step c .eof).out = s.out ∧ (s.step c .eof).stream = [] ∧
      (((s.step c .eof).err = some .unexpectedEof ∧ p.length < 4) ∨
       (Stuck (s.step c .eof) ∧ (s.step c .eof).err = none ∧ AtBody s.reader))) := by
  obtain ⟨h1, h2, h3, h4, h5⟩ := h
  obtain ⟨r, stream, out, err⟩ := s
  dsimp only at h2 h3 h4 h5
  subst h4
  by_cases hs : stream = []
  · subst hs
    cases h5 with
    | header _ sb hsb hp ht =>
      right
      simp [Conn.step, Reader.got, Conn.record, hp]
    | body m rest' q sb hr hsb hq =>
      have hne : ¬ (q.length = (body c z m).length) := by omega
      by_cases hq0 : q.length = 0
      · right
        have hq' : q = [] := List.length_eq_zero_iff.mp hq0
        subst hq'
        have hb := body_ne c hc z m
        have hne' : ¬ (0 = (body c z m).length) := by omega
        simp only [Conn.step, Reader.got, Conn.record, overwrite, Reader.top, List.length_nil, Nat.add_zero,
          Option.isSome_none, List.isEmpty_nil, Bool.not_true, Bool.or_false, Bool.false_eq_true, if_false, hne', if_true,
          List.take_zero, List.nil_append, List.drop_zero, Nat.sub_zero]
        refine ⟨trivial, trivial, .inr ⟨⟨rfl, rfl, (body c z m).length, comp c z m, rfl, hb, by simp⟩, trivial, rfl, rfl⟩⟩
      · left
        simp [Conn.step, Reader.got, Conn.record, overwrite, Reader.top, hne, hq0]
  · left
    have : stream.isEmpty = false := by cases stream <;> simp_all
    simp [Conn.step, this]

theorem safe_step (c : Codec T) (hc : c.Lawful) (z : Bool) (ms : List T) (hf : ∀ m ∈ ms, Fits c z m) (s : Conn T)
    (h : Safe c z ms s) (a : Act) (hcan : a = .cancel → ¬ AtBody s.reader) : Safe c z ms (s.step c a) := by
  rcases h with ⟨done, rest, p, h⟩ | ⟨hx, done, rest, hd, ho⟩
  · cases a with
    | ioError =>
      refine .inr ⟨.inl ?_, done, rest, h.split, ?_⟩
      · simp [Conn.step, h.err]
      · simpa [Conn.step, h.err] using h.out
    | cancel => rw [good_cancel c z ms done rest p s h (hcan rfl)]; exact .inl ⟨_, _, _, h⟩
    | expire =>
      cases hm : s.reader.msgSize with
      | none =>
        have : s.step c .expire = s := by simp [Conn.step, hm]
        rw [this]; exact .inl ⟨_, _, _, h⟩
      | some x =>
        refine .inr ⟨.inl ?_, done, rest, h.split, ?_⟩
        · simp [Conn.step, h.err, hm]
        · simpa [Conn.step, h.err, hm] using h.out
    | eof =>
      rcases good_eof c hc z ms done rest p s h with e | ⟨e1, e2, e3⟩
      · rw [e]; exact .inl ⟨_, _, _, h⟩
      · refine .inr ⟨?_, done, rest, h.split, by rw [e1]; exact h.out⟩
        rcases e3 with e3 | e3
        · left; rw [e3.1]; rfl
        · right; exact e3.1
    | read k =>
      obtain ⟨g1, g2⟩ := good_read c hc z ms done rest p s hf h k
      by_cases hk : k = 0
      · rw [g1 (.inl hk)]; exact .inl ⟨_, _, _, h⟩
      · by_cases hs : s.stream = []
        · rw [g1 (.inr hs)]; exact .inl ⟨_, _, _, h⟩
        · exact .inl (g2 hk hs).1
  · rcases he : s.err with _ | e
    · rcases hx with hx | hx
      · rw [he] at hx; cases hx
      · obtain ⟨s1, s2⟩ := stuck_step c s hx he a
        exact .inr ⟨s2, done, rest, hd, by rw [s1]; exact ho⟩
    · have : s.step c a = s := by cases a <;> simp [Conn.step, he]
      rw [this]
      exact .inr ⟨.inl (by rw [he]; rfl), done, rest, hd, ho⟩

theorem safe_run (c : Codec T) (hc : c.Lawful) (z : Bool) (ms : List T) (hf : ∀ m ∈ ms, Fits c z m) (as : List Act) :
    ∀ s : Conn T, Safe c z ms s → NoBadCancel c s as → Safe c z ms (s.run c as) := by
  induction as with
  | nil => intro s h _; exact h
  | cons a as ih => intro s h hn; exact ih _ (safe_step c hc z ms hf s h a hn.1) hn.2

/-! ## The blocking reader -/

theorem readExact_quiet (t : Bool) (n : Nat) (bs rest : List Byte) (evs : List Ev) :
    ∀ (got stream : List Byte), (∀ e ∈ evs, Quiet e) → got ++ stream = bs ++ rest → bs.length = n → got.length ≤ n →
    (readExact t n got stream evs = none ∨
      ∃ evs', readExact t n got stream evs = some (.ok bs, rest, evs') ∧ (∀ e ∈ evs', Quiet e) ∧
        evs.countP Ev.delivers ≤
          evs'.countP Ev.delivers + (n - got.length)) ∧
    (n - got.length ≤ evs.countP Ev.delivers →
      readExact t n got stream evs ≠ none) := by
  induction evs with
  | nil =>
    intro got stream hq hg hn hl
    unfold readExact
    by_cases h : got.length = n
    · obtain ⟨a, b⟩ := List.append_inj hg (by omega)
      rw [if_pos h]
      exact ⟨.inr ⟨[], by rw [a, b], by simp, by simp⟩, by simp⟩
    · rw [if_neg h]
      refine ⟨.inl rfl, ?_⟩
      intro hh; simp at hh; omega
  | cons e evs ih =>
    intro got stream hq hg hn hl
    unfold readExact
    by_cases h : got.length = n
    · obtain ⟨a, b⟩ := List.append_inj hg (by omega)
      rw [if_pos h]
      exact ⟨.inr ⟨e :: evs, by rw [a, b], hq, by omega⟩, by simp⟩
    · rw [if_neg h]
      have hq' : ∀ e ∈ evs, Quiet e := fun e he => hq e (List.mem_cons_of_mem _ he)
      cases e with
      | eof => exact absurd (hq _ List.mem_cons_self) (by simp [Quiet])
      | ioError => exact absurd (hq _ List.mem_cons_self) (by simp [Quiet])
      | expire => exact absurd (hq _ List.mem_cons_self) (by simp [Quiet])
      | interrupted =>
        rw [List.countP_cons_of_neg (by simp [Ev.delivers])]
        exact ih got stream hq' hg hn hl
      | wouldBlock =>
        rw [List.countP_cons_of_neg (by simp [Ev.delivers])]
        exact ih got stream hq' hg hn hl
      | read k =>
        dsimp only
        have hsl : stream.length = bs.length + rest.length - got.length := by
          have := congrArg List.length hg; simp at this; omega
        by_cases hz : (stream.take (min k (n - got.length))).length = 0
        · have hk : k = 0 := by
            rw [List.length_take] at hz; omega
          rw [if_pos hz]
          rw [List.countP_cons_of_neg (by simp [Ev.delivers, hk])]
          exact ih got stream hq' hg hn hl
        · rw [if_neg hz]
          have hlen : (got ++ stream.take (min k (n - got.length))).length ≤ n := by
            rw [List.length_append, List.length_take]; omega
          have hgt : got.length < (got ++ stream.take (min k (n - got.length))).length := by
            rw [List.length_append]; omega
          have hg' : got ++ stream.take (min k (n - got.length)) ++ stream.drop (min k (n - got.length)) = bs ++ rest := by
            rw [List.append_assoc, List.take_append_drop, hg]
          obtain ⟨i1, i2⟩ := ih _ _ hq' hg' hn hlen
          have hk : k ≠ 0 := by intro hk; subst hk; simp at hz
          rw [List.countP_cons_of_pos (by simp [Ev.delivers, hk])]
          constructor
          · rcases i1 with i1 | ⟨evs', j1, j2, j3⟩
            · exact .inl i1
            · exact .inr ⟨evs', j1, j2, by omega⟩
          · intro hh; exact i2 (by omega)

end Abq.Wire
