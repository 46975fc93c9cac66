import Verif.Proof.Framing
import Verif.Proof.FramingKept
import Verif.Proof.FramingLost

/-!
# Messages on the wire (C34, C35, C36, C63)

`c` is the serialization and compression, of which only `Codec.Lawful` is assumed; `z` says whether large messages
are compressed (between parts of abq) or not (with the native runner).
-/

namespace Abq.Props
open Abq.Wire

/-- **C34.** A message is read back by the blocking reader, and what follows it on the connection is left alone, however
the bytes arrive: the reader returns the message (or is still reading, if there were too few reads). -/
theorem C34_read_back {T : Type} (c : Codec T) (hc : c.Lawful) (z : Bool) (m : T) (hf : Fits c z m) (rest : List Byte)
    (evs : List Ev) (hq : ∀ e ∈ evs, Quiet e) :
    (readMsg c (frame c z m ++ rest) evs = none ∨
      ∃ evs', readMsg c (frame c z m ++ rest) evs = some (.ok m, rest, evs')) ∧
    ((frame c z m).length ≤ evs.countP Ev.delivers → readMsg c (frame c z m ++ rest) evs ≠ none) := by
  obtain ⟨e1, e2⟩ := hdr_size c hc z m hf
  have hstream : ([] : List Byte) ++ (frame c z m ++ rest) = hdr c z m ++ (body c z m ++ rest) := by
    rw [frame_eq]; simp
  obtain ⟨a1, a2⟩ := readExact_quiet false 4 (hdr c z m) (body c z m ++ rest) evs [] (frame c z m ++ rest) hq hstream
    (hdr_length c z m) (by simp)
  rcases a1 with a1 | ⟨evs1, a1, a3, a4⟩
  · refine ⟨.inl (by simp [readMsg, a1]), ?_⟩
    intro h
    rw [frame_length] at h
    exact absurd a1 (a2 (by simp; omega))
  · obtain ⟨b1, b2⟩ := readExact_quiet true (body c z m).length (body c z m) rest evs1 [] (body c z m ++ rest) a3
      (by simp) rfl (by simp)
    rcases b1 with b1 | ⟨evs2, b1, b3, b4⟩
    · refine ⟨.inl (by simp [readMsg, a1, e1, b1]), ?_⟩
      intro h
      rw [frame_length] at h
      simp only [List.length_nil, Nat.sub_zero] at a4 b2
      exact absurd b1 (b2 (by omega))
    · have : readMsg c (frame c z m ++ rest) evs = some (.ok m, rest, evs2) := by
        simp [readMsg, a1, e1, e2, b1, decode_body c hc]
      exact ⟨.inr ⟨evs2, this⟩, fun _ => by rw [this]; simp⟩

/-- **C34.** Different messages have different bytes on the wire, so nothing is lost in writing. -/
theorem C34_injective {T : Type} (c : Codec T) (hc : c.Lawful) (z : Bool) (m m' : T) (h1 : Fits c z m)
    (h2 : Fits c z m') (h : frame c z m = frame c z m') : m = m' := by
  have e1 := decode_body c hc z m
  have e2 := decode_body c hc z m'
  have hh : hdr c z m = hdr c z m' := by unfold hdr; rw [h]
  have hb : body c z m = body c z m' := by unfold body; rw [h]
  have hcomp : comp c z m = comp c z m' := by
    rw [← (hdr_size c hc z m h1).2, ← (hdr_size c hc z m' h2).2, hh]
  rw [hcomp, hb] at e1
  rw [e1] at e2
  exact Option.some.inj e2

/-- **C34.** The limit of 2 GiB is sharp: the size of an uncompressed message from 2 GiB up to 4 GiB is read as that of a
compressed one, of another size. -/
theorem C34_limit_is_sharp (n : Nat) (h1 : 2 ^ 31 ≤ n) (h2 : n < 2 ^ 32) :
    let raw := fromBeBytes (toBeBytes (asI32 n))
    isNegative raw = true ∧ unsignedAbs raw = 2 ^ 32 - n := by
  have e : asI32 n = n := by unfold asI32; omega
  rw [e, fromBe_toBe n h2]
  have : isNegative n = true := by simp [isNegative]; omega
  exact ⟨this, by simp only [unsignedAbs, this, if_true]⟩

/-- **C34.** A stream of bytes of known length below 4 GiB is read back, and what follows it is left alone. -/
theorem C34_streams (bytes rest : List Byte) (h : bytes.length < 2 ^ 32) :
    readStream (streamBytes bytes.length bytes ++ rest) = some (bytes, rest) := by
  have e : asI32 bytes.length = bytes.length := by unfold asI32; omega
  have hl : (toBeBytes bytes.length).length = 4 := rfl
  have ht : (toBeBytes bytes.length ++ (bytes ++ rest)).take 4 = toBeBytes bytes.length := List.take_left' hl
  have hd : (toBeBytes bytes.length ++ (bytes ++ rest)).drop 4 = bytes ++ rest := List.drop_left' hl
  have hlen : ¬ ((toBeBytes bytes.length ++ (bytes ++ rest)).length < 4) := by
    rw [List.length_append, hl]; omega
  simp only [streamBytes, e, List.append_assoc, readStream, if_neg hlen, ht, hd, fromBe_toBe _ h]
  simp

/-- **C35.** However the bytes of a sequence of messages are split into reads, what the incremental reader has returned is
exactly the messages whose bytes it has consumed, in order, with their sizes; it has not failed; and it has consumed
less than the whole of the next message. -/
theorem C35_fragmentation {T : Type} (c : Codec T) (hc : c.Lawful) (z : Bool) (ms : List T)
    (hf : ∀ m ∈ ms, Fits c z m) (ks : List Nat) :
    let s := (Conn.new (frames c z ms)).run c (ks.map .read)
    s.err = none ∧ ∃ done rest p, ms = done ++ rest ∧ s.out = done.map (fun m => (m, (body c z m).length)) ∧
      frames c z rest = p ++ s.stream ∧ (p = [] ∨ ∃ m rest', rest = m :: rest' ∧ p.length < (frame c z m).length) := by
  have calm : ∀ (ks : List Nat) (s : Conn T), Calm c s (ks.map .read) := by
    intro ks
    induction ks with
    | nil => intro s; exact True.intro
    | cons k ks ih => intro s; exact ⟨by simp, ih _⟩
  obtain ⟨done, rest, p, h⟩ := good_run c hc z ms hf (ks.map .read) _ [] ms [] (good_new c z ms) (calm ks _)
  refine ⟨h.err, done, rest, p, h.split, h.out, h.stream.symm, ?_⟩
  cases rest with
  | nil =>
    left
    have := h.stream
    simp [frames] at this
    exact this.1
  | cons m rest' =>
    right
    refine ⟨m, rest', rfl, ?_⟩
    rcases at_len c z _ _ _ h.reader with ⟨h1, h2⟩ | h1 | ⟨m', r', h1, h2⟩
    · cases h2
    · rw [frame_length]; omega
    · cases h1; exact h2

/-- **C35.** Once all bytes are consumed, all messages were returned. -/
theorem C35_all_delivered {T : Type} (c : Codec T) (hc : c.Lawful) (z : Bool) (ms : List T)
    (hf : ∀ m ∈ ms, Fits c z m) (ks : List Nat)
    (hs : ((Conn.new (frames c z ms) : Conn T).run c (ks.map .read)).stream = []) :
    ((Conn.new (frames c z ms) : Conn T).run c (ks.map .read)).out = ms.map fun m => (m, (body c z m).length) := by
  obtain ⟨_, done, rest, p, h1, h2, h3, h4⟩ := C35_fragmentation c hc z ms hf ks
  rw [hs, List.append_nil] at h3
  have : rest = [] := by
    rcases h4 with h4 | ⟨m, rest', h4, h5⟩
    · exact frames_nil_of c z rest (by rw [h3, h4])
    · subst h4
      rw [← h3, frames_cons, List.length_append, List.length_append, frame_length, hdr_length] at h5
      omega
  subst this
  rw [h2, h1, List.append_nil]

/-- **C35.** Every read that may deliver something makes progress while bytes are left, so that as many such reads as there
are bytes are enough. -/
theorem C35_progress {T : Type} (c : Codec T) (hc : c.Lawful) (z : Bool) (ms : List T)
    (hf : ∀ m ∈ ms, Fits c z m) (ks : List Nat) (hk : ∀ k ∈ ks, k ≠ 0) (hl : (frames c z ms).length ≤ ks.length) :
    ((Conn.new (frames c z ms) : Conn T).run c (ks.map .read)).stream = [] := by
  have key : ∀ (ks : List Nat) (s : Conn T) (done rest : List T) (p : List Byte), (∀ k ∈ ks, k ≠ 0) →
      Good c z ms s done rest p → s.stream.length ≤ ks.length → (s.run c (ks.map .read)).stream = [] := by
    intro ks
    induction ks with
    | nil => intro s done rest p _ _ hl; exact (List.length_eq_zero_iff.mp (Nat.le_zero.mp hl) : s.stream = [])
    | cons k ks ih =>
      intro s done rest p hk h hl
      have hk' : ∀ k ∈ ks, k ≠ 0 := fun x hx => hk x (List.mem_cons_of_mem _ hx)
      obtain ⟨g1, g2⟩ := good_read c hc z ms done rest p s hf h k
      show ((s.step c (.read k)).run c (ks.map .read)).stream = []
      by_cases hs : s.stream = []
      · rw [g1 (.inr hs)]; exact ih s done rest p hk' h (by rw [hs]; simp)
      · obtain ⟨⟨d', r', p', h'⟩, hlt⟩ := g2 (hk k List.mem_cons_self) hs
        exact ih _ d' r' p' hk' h' (by simp at hl; omega)
  exact key ks _ _ _ _ hk (good_new c z ms) hl

/-- **C36** (except for abandoning `next` between the size and the body of a message). With any number of calls of `next`
abandoned and repeated, and any delay between messages, what was returned is exactly the messages whose bytes were
consumed, and nothing failed. -/
theorem C36_cancel_partial {T : Type} (c : Codec T) (hc : c.Lawful) (z : Bool) (ms : List T)
    (hf : ∀ m ∈ ms, Fits c z m) (as : List Abq.Wire.Act) (hcalm : Calm c (Conn.new (frames c z ms)) as) :
    let s := (Conn.new (frames c z ms)).run c as
    s.err = none ∧ ∃ done rest p, ms = done ++ rest ∧ s.out = done.map (fun m => (m, (body c z m).length)) ∧
      frames c z rest = p ++ s.stream ∧ (p = [] ∨ ∃ m rest', rest = m :: rest' ∧ p.length < (frame c z m).length) := by
  obtain ⟨done, rest, p, h⟩ := good_run c hc z ms hf as _ [] ms [] (good_new c z ms) hcalm
  refine ⟨h.err, done, rest, p, h.split, h.out, h.stream.symm, ?_⟩
  cases rest with
  | nil =>
    left
    have := h.stream
    simp [frames] at this
    exact this.1
  | cons m rest' =>
    right
    refine ⟨m, rest', rfl, ?_⟩
    rcases at_len c z _ _ _ h.reader with ⟨h1, h2⟩ | h1 | ⟨m', r', h1, h2⟩
    · cases h2
    · rw [frame_length]; omega
    · cases h1; exact h2

/-- JSON digits: the messages are digits, a digit is one byte, and anything else is refused, as `serde_json` does for
digits followed by bytes that are not white space. Compression puts a byte in front. -/
def digits : Codec (Fin 10) where
  toVec d := [48 + d.val]
  fromSlice
    | [b] => if h : b - 48 < 10 then (if 48 ≤ b then some ⟨b - 48, h⟩ else none) else none
    | _ => none
  gzip b := 31 :: b
  gunzip
    | 31 :: b => some b
    | _ => none

theorem digits_lawful : digits.Lawful where
  json m := by revert m; decide
  gz _ := rfl
  jsonNe m := by simp [digits]
  gzNe b := by simp [digits]

theorem digits_fit (m : Fin 10) : Fits digits true m := by revert m; unfold Fits; decide

/-- **C36 fails** as stated: abandoning `next` when the size of a message has arrived and its body has not, and calling it
again, makes the message unreadable. -/
theorem C36_full_statement_fails :
    ¬ ∀ (c : Codec (Fin 10)) (_ : c.Lawful) (ms : List (Fin 10)) (_ : ∀ m ∈ ms, Fits c true m)
      (as : List Abq.Wire.Act) (_ : ∀ a ∈ as, a = .cancel ∨ ∃ k, a = .read k),
      ((Conn.new (frames c true ms)).run c as).err = none := by
  intro h
  have := h digits digits_lawful [7] (fun m _ => digits_fit m) [.read 4, .cancel, .read 1] (by simp)
  revert this
  decide

/-- **C36**, the other way round: once `next` is abandoned between the size and the body of a message that is not compressed, and
called again, neither this message nor any later one is ever returned, whatever happens then. Of serialization it is assumed that
no text that ends in zeros is a message, which holds of JSON (`C36_json`). -/
theorem C36_abandoned_for_ever {T : Type} (c : Codec T) (hc : c.RefusesZeros) (stream : List Byte) (as bs : List Abq.Wire.Act)
    (n : Nat) (hn : 0 < n) (hs : ((Conn.new stream : Conn T).run c as).reader.msgSize = some (n, false))
    (hr : ((Conn.new stream : Conn T).run c as).reader.read = 0) :
    ((Conn.new stream : Conn T).run c (as ++ .cancel :: bs)).out = ((Conn.new stream : Conn T).run c as).out :=
  lost_for_ever c hc stream as bs n hn hs hr

/-- **C36**, of a message that is compressed (that is, of more than a million bytes): abandoning `next` between its size and its body,
any number of times, does no harm as long as nothing follows it before it is read: it is returned. Of decompression it is assumed
that it does not look at what follows a compressed text, as is so of `flate2`'s `GzDecoder`. -/
theorem C36_abandoned_compressed {T : Type} (c : Codec T) (hc : c.Lawful) (hz : c.IgnoresZeros) (ms : List T) (m : T)
    (hf : ∀ x ∈ ms ++ [m], Fits c true x) (hbig : 1000000 < (c.toVec m).length) (as : List Abq.Wire.Act)
    (hcalm : Calm c (Conn.new (frames c true (ms ++ [m]))) as)
    (hout : ((Conn.new (frames c true (ms ++ [m]))).run c as).out.length = ms.length)
    (hat : AtBody ((Conn.new (frames c true (ms ++ [m]))).run c as).reader) (j : Nat) (ks : List Nat) (hk : ∀ k ∈ ks, k ≠ 0)
    (hl : (body c true m).length ≤ ks.length) :
    let s := (Conn.new (frames c true (ms ++ [m]))).run c (as ++ List.replicate j .cancel ++ ks.map .read)
    s.err = none ∧ s.out = (ms ++ [m]).map fun x => (x, (body c true x).length) :=
  kept c hc hz ms m hf hbig as hcalm hout hat j ks hk hl

/-- **C36**, if something does follow: when the first read after the abandoned call delivers more than the message, compressed or not,
neither this message nor any later one is ever returned, whatever happens then. -/
theorem C36_abandoned_followed {T : Type} (c : Codec T) (stream : List Byte) (as bs : List Abq.Wire.Act) (n k : Nat) (z : Bool)
    (hn : 0 < n) (hs : ((Conn.new stream : Conn T).run c as).reader.msgSize = some (n, z))
    (hr : ((Conn.new stream : Conn T).run c as).reader.read = 0)
    (hmore : n < ((Conn.new stream : Conn T).run c as).stream.length) (hk : n < k) :
    ((Conn.new stream : Conn T).run c (as ++ .cancel :: .read k :: bs)).out = ((Conn.new stream : Conn T).run c as).out := by
  have hz := zeros_run c stream as
  rw [run_append, run_cons, run_cons]
  generalize (Conn.new stream : Conn T).run c as = s at *
  suffices h : Past n ((s.step c .cancel).step c (.read k)) ∧ ((s.step c .cancel).step c (.read k)).out = s.out by
    rw [past_run c bs _ h.1, h.2]
  obtain ⟨⟨sb, sz, mb, rd⟩, st, out, err⟩ := s
  simp only at hs hr hmore hz
  subst hs hr
  cases err with
  | some e => exact ⟨fun h => by simp [Conn.step] at h, by simp [Conn.step]⟩
  | none =>
    have hz := hz rfl
    simp only [Zeros] at hz
    have e1 : (⟨⟨sb, some (n, z), mb, 0⟩, st, out, none⟩ : Conn T).step c .cancel =
        ⟨⟨sb, some (n, z), mb ++ List.replicate n 0, 0⟩, st, out, none⟩ := by simp [Conn.step, Reader.top]
    rw [e1]
    have hw : Reader.want ⟨sb, some (n, z), mb ++ List.replicate n 0, 0⟩ = mb.length + n := by simp [Reader.want]
    have hlen : (st.take (min k (mb.length + n))).length > n := by rw [List.length_take]; omega
    have e2 : (⟨⟨sb, some (n, z), mb ++ List.replicate n 0, 0⟩, st, out, none⟩ : Conn T).step c (.read k) =
        (⟨⟨sb, some (n, z), mb ++ List.replicate n 0, 0⟩, st.drop (min k (mb.length + n)), out, none⟩ : Conn T).record
          (Reader.got c ⟨sb, some (n, z), mb ++ List.replicate n 0, 0⟩ (st.take (min k (mb.length + n)))) := by
      simp only [Conn.step, Option.isSome_none, Bool.false_eq_true, if_false]
      rw [hw, if_neg (by omega), if_neg (by omega)]
    rw [e2]
    generalize st.take (min k (mb.length + n)) = got at hlen
    unfold Reader.got
    simp only
    rw [if_neg (by omega)]
    simp only [Conn.record, Reader.top]
    rw [if_neg (by omega)]
    exact ⟨fun _ => ⟨⟨z, rfl⟩, by simp only; omega⟩, trivial⟩

/-- Messages of any length: a number is so many `1`s. Compression puts the length in front. -/
def lengths : Codec Nat where
  toVec n := List.replicate (n + 1) 49
  fromSlice b := if b.length = 0 then none else some (b.length - 1)
  gzip b := b.length :: b
  gunzip
    | n :: b => some (b.take n)
    | _ => none

theorem lengths_lawful : lengths.Lawful where
  json m := by simp [lengths]
  gz b := by simp [lengths]
  jsonNe m := by simp [lengths]
  gzNe b := by simp [lengths]

theorem lengths_ignore : lengths.IgnoresZeros := by
  intro b k
  simp [lengths]

theorem lengths_at (n : Nat) (h : 1000000 ≤ n) (h' : n < 2 ^ 30) :
    (1000000 < (lengths.toVec n).length ∧ ∀ x ∈ [] ++ [n], Fits lengths true x) ∧
    Calm lengths (Conn.new (frames lengths true ([] ++ [n]))) [.read 4] ∧
    ((Conn.new (frames lengths true ([] ++ [n]))).run lengths [.read 4]).out.length = 0 ∧
    AtBody ((Conn.new (frames lengths true ([] ++ [n]))).run lengths [.read 4]).reader := by
  refine ⟨⟨by simp [lengths]; omega, ?_⟩, ⟨by simp, trivial⟩, ?_⟩
  · intro x hx
    simp only [List.nil_append, List.mem_singleton] at hx
    subst hx
    simp only [Fits, lengths, List.length_replicate]
    split <;> simp <;> omega
  · have e : frames lengths true ([] ++ [n]) = hdr lengths true n ++ body lengths true n := by
      rw [List.nil_append, frames_cons]; simp [frames]
    have ht : (hdr lengths true n ++ body lengths true n).take 4 = hdr lengths true n :=
      List.take_left' (hdr_length _ _ _)
    rw [e]
    simp [Conn.run, Conn.new, Conn.step, Reader.new, Reader.want, ht, hdr_length, Reader.got, overwrite, Conn.record, AtBody, Reader.top]

/-- A message of a million and one bytes, after the first four bytes. -/
example : AtBody ((Conn.new (frames lengths true ([] ++ [1000000]))).run lengths [.read 4]).reader :=
  (lengths_at 1000000 (by decide) (by decide)).2.2.2

/-- A message that is followed by another. -/
example : ((Conn.new (frames digits true [7, 8])).run digits [.read 4]).reader.msgSize = some (1, false) ∧
    ((Conn.new (frames digits true [7, 8])).run digits [.read 4]).reader.read = 0 ∧
    1 < ((Conn.new (frames digits true [7, 8])).run digits [.read 4]).stream.length := by decide

theorem digits_refuse : digits.RefusesZeros := by
  intro b k hk
  cases k with
  | zero => omega
  | succ k =>
    cases b with
    | nil => cases k <;> simp [digits, List.replicate_succ]
    | cons x b => cases b <;> simp [digits, List.replicate_succ]

/-- The second of two messages. -/
example : ((Conn.new (frames digits true [7, 8])).run digits [.read 4, .read 1, .read 4]).reader.msgSize = some (1, false) ∧
    ((Conn.new (frames digits true [7, 8])).run digits [.read 4, .read 1, .read 4]).reader.read = 0 ∧
    ((Conn.new (frames digits true [7, 8])).run digits [.read 4, .read 1, .read 4]).out = [(7, 1)] := by decide

/-- The same bytes without the abandoned call. -/
example : ((Conn.new (frames digits true [7])).run digits [.read 4, .read 1]).out = [(7, 1)] := by decide
/-- With an abandoned call the message is refused, … -/
example : ((Conn.new (frames digits true [7])).run digits [.read 4, .cancel, .read 1]).err = some .invalidData := by
  decide
/-- … or, if the next message has come too, runs into it and never ends. -/
example : ((Conn.new (frames digits true [7, 8])).run digits [.read 4, .cancel, .read 2, .read 9, .read 9]) =
    ⟨⟨[0, 0, 0, 1], some (1, false), [55, 0], 2⟩, [0, 0, 1, 56], [], none⟩ := by decide
/-- Calls abandoned elsewhere do no harm. -/
example : ((Conn.new (frames digits true [7, 8])).run digits
    [.cancel, .read 2, .cancel, .read 9, .read 1, .expire, .cancel, .read 5, .read 9]).out = [(7, 1), (8, 1)] := by decide

/-- **C63** (the part on messages). Whatever faults happen, such as the connection ending, failing or stalling anywhere, the
messages returned are some first ones of those sent: none is made up. -/
theorem C63_no_message_made_up_partial {T : Type} (c : Codec T) (hc : c.Lawful) (z : Bool) (ms : List T)
    (hf : ∀ m ∈ ms, Fits c z m) (as : List Abq.Wire.Act) (hn : NoBadCancel c (Conn.new (frames c z ms)) as) :
    ∃ done rest, ms = done ++ rest ∧
      ((Conn.new (frames c z ms)).run c as).out = done.map (fun m => (m, (body c z m).length)) := by
  rcases safe_run c hc z ms hf as _ (.inl ⟨_, _, _, good_new c z ms⟩) hn with ⟨d, r, p, h⟩ | ⟨_, d, r, h1, h2⟩
  · exact ⟨d, r, h.split, h.out⟩
  · exact ⟨d, r, h1, h2⟩

/-- Reading more than there is ends with the first event that is no read: the end of the stream, or the time being up. -/
theorem readExact_short (t : Bool) (n : Nat) (e : Ev) (err : Wire.Err)
    (he : (e = .eof ∧ err = .unexpectedEof) ∨ (e = .expire ∧ err = .timedOut ∧ t = true)) (ks : List Nat) :
    ∀ (got stream : List Byte), (∀ k ∈ ks, k ≠ 0) → got.length + stream.length < n → stream.length ≤ ks.length →
      ∃ evs, readExact t n got stream (ks.map Ev.read ++ [e]) = some (.error err, [], evs) := by
  induction ks with
  | nil =>
    intro got stream _ h1 h2
    have : stream = [] := List.length_eq_zero_iff.mp (by simpa using h2)
    subst this
    refine ⟨[], ?_⟩
    simp only [List.map_nil, List.nil_append, readExact]
    rw [if_neg (by omega)]
    rcases he with ⟨rfl, rfl⟩ | ⟨rfl, rfl, rfl⟩ <;> rfl
  | cons k ks ih =>
    intro got stream hk h1 h2
    have hk' : ∀ k ∈ ks, k ≠ 0 := fun x hx => hk x (List.mem_cons_of_mem _ hx)
    have hk0 := hk k List.mem_cons_self
    simp only [List.map_cons, List.cons_append, readExact]
    rw [if_neg (by omega)]
    by_cases hz : (stream.take (min k (n - got.length))).length = 0
    · rw [if_pos hz]
      rw [List.length_take] at hz
      exact ih got stream hk' h1 (by omega)
    · rw [if_neg hz]
      refine ih _ _ hk' ?_ ?_
      · rw [List.length_append, List.length_take, List.length_drop]; omega
      · rw [List.length_drop]; simp at h2; rw [List.length_take] at hz; omega

/-- Reading what is there succeeds, using at most as many reads as bytes. -/
theorem readExact_enough (t : Bool) (n : Nat) (tail : List Ev) (ks : List Nat) :
    ∀ (got stream : List Byte), (∀ k ∈ ks, k ≠ 0) →
      got.length ≤ n → n ≤ got.length + stream.length → n - got.length ≤ ks.length →
      ∃ ks' : List Nat, readExact t n got stream (ks.map Ev.read ++ tail) =
          some (.ok ((got ++ stream).take n), (got ++ stream).drop n, ks'.map Ev.read ++ tail) ∧
        (∀ k ∈ ks', k ≠ 0) ∧ ks.length ≤ ks'.length + (n - got.length) := by
  induction ks with
  | nil =>
    intro got stream _ h0 h1 h2
    have : got.length = n := by simp at h2; omega
    refine ⟨[], ?_, by simp, by simp⟩
    cases tail <;> simp only [List.map_nil, List.nil_append, readExact] <;> rw [if_pos this, ← this] <;> simp
  | cons k ks ih =>
    intro got stream hk h0 h1 h2
    have hk' : ∀ k ∈ ks, k ≠ 0 := fun x hx => hk x (List.mem_cons_of_mem _ hx)
    have hk0 := hk k List.mem_cons_self
    by_cases hg : got.length = n
    · refine ⟨k :: ks, ?_, hk, by omega⟩
      simp only [List.map_cons, List.cons_append, readExact]
      rw [if_pos hg, ← hg]; simp
    · have hz : ¬ ((stream.take (min k (n - got.length))).length = 0) := by
        rw [List.length_take]; omega
      simp only [List.map_cons, List.cons_append, readExact]
      rw [if_neg hg, if_neg hz]
      obtain ⟨ks', i1, i2, i3⟩ := ih (got ++ stream.take (min k (n - got.length))) (stream.drop (min k (n - got.length))) hk'
        (by rw [List.length_append, List.length_take]; omega)
        (by rw [List.length_append, List.length_take, List.length_drop]; omega)
        (by rw [List.length_append]; simp at h2; omega)
      refine ⟨ks', ?_, i2, ?_⟩
      · rw [i1, List.append_assoc, List.take_append_drop]
      · rw [List.length_append] at i3; simp; omega

/-- The body of a message ends early: the reader stops with the event that says so. -/
theorem readMsg_stops {T : Type} (c : Codec T) (hc : c.Lawful) (z : Bool) (m : T) (hf : Fits c z m)
    (p rest : List Byte) (hp : p ++ rest = frame c z m) (hr : rest ≠ []) (ks : List Nat) (hk : ∀ k ∈ ks, k ≠ 0)
    (hl : p.length ≤ ks.length) (h4 : 4 ≤ p.length) (e : Ev) (err : Wire.Err)
    (he : (e = .eof ∧ err = .unexpectedEof) ∨ (e = .expire ∧ err = .timedOut)) :
    ∃ st evs, readMsg c p (ks.map .read ++ [e]) = some (.error err, st, evs) := by
  have hpl : p.length < (frame c z m).length := by
    rw [← hp, List.length_append]; have := List.length_pos_iff.mpr hr; omega
  obtain ⟨ks', h1, h2, h3⟩ := readExact_enough false 4 [e] ks [] p hk (by simp) (by simp; omega) (by simp; omega)
  simp only [List.nil_append, List.length_nil, Nat.sub_zero] at h1 h3
  have hh : p.take 4 = hdr c z m := by
    unfold hdr; rw [← hp, List.take_append_of_le_length (by omega)]
  have hdl : (p.drop 4).length = p.length - 4 := List.length_drop
  rw [frame_length] at hpl
  obtain ⟨evs, h5⟩ := readExact_short true (body c z m).length e err
    (by rcases he with h | h; exact .inl h; exact .inr ⟨h.1, h.2, rfl⟩) ks' [] (p.drop 4) h2 (by rw [hdl]; simp; omega) (by omega)
  refine ⟨[], evs, ?_⟩
  simp only [readMsg, h1, hh, (hdr_size c hc z m hf).1, h5]

/-- **C63** (the part on the blocking reader). It reports the end of the connection as such as soon as it sees it, wherever
in a message that is. -/
theorem C63_blocking_reader_reports_end {T : Type} (c : Codec T) (hc : c.Lawful) (z : Bool) (m : T) (hf : Fits c z m)
    (p rest : List Byte) (hp : p ++ rest = frame c z m) (hr : rest ≠ []) (ks : List Nat) (hk : ∀ k ∈ ks, k ≠ 0)
    (hl : p.length ≤ ks.length) : ∃ st evs, readMsg c p (ks.map .read ++ [.eof]) = some (.error .unexpectedEof, st, evs) := by
  by_cases h4 : p.length < 4
  · obtain ⟨evs, h⟩ := readExact_short false 4 .eof .unexpectedEof (.inl ⟨rfl, rfl⟩) ks [] p hk (by simpa using h4) hl
    exact ⟨[], evs, by simp [readMsg, h]⟩
  · exact readMsg_stops c hc z m hf p rest hp hr ks hk hl (by omega) .eof .unexpectedEof (.inl ⟨rfl, rfl⟩)

/-- **C63** (the part on the blocking reader). When the time is up within the body of a message it gives up, saying so. It waits
for the beginning of a message as long as it takes. -/
theorem C63_blocking_reader_times_out {T : Type} (c : Codec T) (hc : c.Lawful) (z : Bool) (m : T) (hf : Fits c z m)
    (p rest : List Byte) (hp : p ++ rest = frame c z m) (hr : rest ≠ []) :
    (∀ ks : List Nat, (∀ k ∈ ks, k ≠ 0) → p.length ≤ ks.length → 4 ≤ p.length →
      ∃ st evs, readMsg c p (ks.map .read ++ [.expire]) = some (.error .timedOut, st, evs)) ∧
    (∀ (n : Nat) (evs : List Ev), readMsg c p (List.replicate n .expire ++ evs) = readMsg c p evs) := by
  refine ⟨fun ks hk hl h4 => readMsg_stops c hc z m hf p rest hp hr ks hk hl h4 .expire .timedOut (.inr ⟨rfl, rfl⟩), ?_⟩
  intro n evs
  induction n with
  | zero => rfl
  | succ n ih =>
    rw [← ih, List.replicate_succ, List.cons_append]
    have : readExact false 4 [] p (.expire :: (List.replicate n .expire ++ evs)) =
        readExact false 4 [] p (List.replicate n .expire ++ evs) := by
      conv => lhs; unfold readExact
      rfl
    simp only [readMsg, this]

/-- Given up within the body of a message, after a wait for its beginning. -/
example : (readMsg digits (hdr digits true 7) [.expire, .expire, .read 2, .read 9, .read 1, .expire]).map
    (fun r => match r.1 with | .error e => some e | .ok _ => none) = some (some .timedOut) := by decide

/-- **C63** (the part on the incremental reader). If the connection ends between messages or within a message's size, the
next `read` makes the reader fail; whenever the time is up within a message's body it fails as well. -/
theorem C63_incremental_reader_reports_partial {T : Type} (c : Codec T) (s : Conn T) (he : s.err = none) :
    (s.reader.msgSize = none → s.stream = [] → (s.step c .eof).err = some .unexpectedEof) ∧
    (s.reader.msgSize.isSome = true → (s.step c .expire).err = some .timedOut) := by
  refine ⟨?_, ?_⟩
  · intro h1 h2; simp [Conn.step, he, h2, Reader.got, h1, Conn.record]
  · intro h1
    obtain ⟨x, hx⟩ := Option.isSome_iff_exists.mp h1
    simp [Conn.step, he, hx]

/-- **C63 fails** for the incremental reader: when the connection ends after the size of a message has arrived, the end is
not reported; instead every further `read`, which returns at once, makes the buffer longer by the whole size again, until
the time is up. -/
theorem C63_full_statement_fails {T : Type} (c : Codec T) (hc : c.Lawful) (z : Bool) (m : T) (hf : Fits c z m) (k : Nat) :
    let s := (Conn.new (hdr c z m) : Conn T).run c (.read 4 :: List.replicate k .eof)
    s.err = none ∧ s.reader.msgBuf.length = (k + 1) * (body c z m).length := by
  have hl := hdr_length c z m
  have hb := body_ne c hc z m
  have first : (Conn.new (hdr c z m) : Conn T).step c (.read 4) =
      ⟨⟨hdr c z m, some ((body c z m).length, comp c z m), List.replicate (body c z m).length 0, 0⟩, [], [], none⟩ := by
    have ht : (hdr c z m).take 4 = hdr c z m := List.take_of_length_le (by omega)
    have hd : (hdr c z m).drop 4 = [] := List.drop_eq_nil_of_le (by omega)
    obtain ⟨e1, e2⟩ := hdr_size c hc z m hf
    simp only [Conn.new, Reader.new, Conn.step, Reader.want, Option.isSome_none, Bool.false_eq_true, if_false,
      Nat.sub_zero, Nat.min_self, ht, hd, hl, Reader.got, overwrite, List.take_zero, List.nil_append, Nat.zero_add,
      Conn.record, Reader.top, if_true]
    simp [e1, e2]
  have rest : ∀ (k a : Nat), ∀ s : Conn T, s = ⟨⟨hdr c z m, some ((body c z m).length, comp c z m),
        List.replicate (a * (body c z m).length) 0, 0⟩, [], [], none⟩ →
      (s.run c (List.replicate k .eof)).err = none ∧
        (s.run c (List.replicate k .eof)).reader.msgBuf.length = (k + a) * (body c z m).length := by
    intro k
    induction k with
    | zero => intro a s hs; subst hs; simp [Conn.run]
    | succ k ih =>
      intro a s hs
      have : s.step c .eof = ⟨⟨hdr c z m, some ((body c z m).length, comp c z m),
        List.replicate ((a + 1) * (body c z m).length) 0, 0⟩, [], [], none⟩ := by
        subst hs
        have hne : ¬ (0 = (body c z m).length) := by omega
        simp [Conn.step, Reader.got, Conn.record, overwrite, Reader.top, hne, List.replicate_append_replicate, Nat.add_mul]
      have h := ih (a + 1) _ this
      have e : k + 1 + a = k + (a + 1) := by omega
      rw [e]
      exact h
  have h := rest k 1 ((Conn.new (hdr c z m) : Conn T).step c (.read 4)) (by rw [first, Nat.one_mul])
  exact h

example : ((Conn.new (hdr digits true 7)).run digits [.read 4, .eof, .eof, .eof]).reader.msgBuf.length = 4 := by decide

/-- Two messages in uneven pieces, by both readers. -/
example : ((Conn.new (frames digits true [4, 2])).run digits [.read 3, .read 9, .read 0, .read 9, .read 9, .read 9]).out =
    [(4, 1), (2, 1)] := by decide
example : (readMsg digits (frames digits true [4, 2])
      [.read 3, .wouldBlock, .read 9, .interrupted, .read 9, .read 1]).map (fun r => (r.1.toOption, r.2.1)) =
    some (some 4, frame digits true 2) := by decide

/-- Compression: a codec whose messages are larger than `n`; above a megabyte they are compressed. -/
def bulky (n : Nat) : Codec Bool where
  toVec b := (if b then 1 else 0) :: List.replicate n 0
  fromSlice
    | 1 :: _ => some true
    | 0 :: _ => some false
    | _ => none
  gzip b := [b.headD 0, b.length]
  gunzip
    | [b, n] => some (b :: List.replicate (n - 1) 0)
    | _ => none

example (n : Nat) (h : 1000000 ≤ n) : Wire.body (bulky n) true true = [1, n + 1] := by
  have : 1000000 < n + 1 := by omega
  rw [body_eq]
  simp [messageBytes, largeMessageSize, bulky, this]
example (n : Nat) : Wire.body (bulky n) false true = 1 :: List.replicate n 0 := by
  rw [body_eq]
  simp [messageBytes, bulky]

end Abq.Props
