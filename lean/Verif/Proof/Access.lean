import Verif.Spec.Access
import Verif.Proof.Auth
import Verif.Proof.Framing
import Verif.Props.Auth
import Verif.Props.Framing

/-! # Proofs of C128 -/

namespace Abq.AccessProof
open Abq.Access Abq.Spec.Access
open Abq.Wire
open Abq.Auth (ClientAuth ServerAuth IsToken LetterOrDigit)

/-- The reader waits for a message of `n` bytes (after its size), or for its size, and there are fewer to come. -/
structure Waits {T : Type} (stream : List Byte) (s : Conn T) : Prop where
  out : s.out = []
  rest : s.err = none →
    (s.reader.msgSize = none ∧ s.reader.read < 4 ∧ s.reader.sizeBuf.length = 4 ∧
      s.reader.sizeBuf.take s.reader.read ++ s.stream = stream) ∨
    ∃ z, s.reader.msgSize = some (unsignedAbs (fromBeBytes (stream.take 4)), z) ∧ s.reader.read + s.stream.length + 4 = stream.length

theorem top_read (r : Reader) : r.top.read = r.read ∧ r.top.msgSize = r.msgSize := by
  unfold Reader.top
  split
  · exact ⟨rfl, rfl⟩
  · split <;> exact ⟨rfl, rfl⟩

/-- What a read does, with the bytes taken off the stream. -/
theorem waits_got {T : Type} (c : Codec T) (stream : List Byte) (s : Conn T) (bs rest : List Byte) (hs : s.stream = bs ++ rest)
    (hn : stream.length < 4 + unsignedAbs (fromBeBytes (stream.take 4))) (he : s.err = none) (hb : bs.length ≤ s.reader.want)
    (h : Waits stream s) : Waits stream ({ s with stream := rest }.record (s.reader.got c bs)) := by
  obtain ⟨ho, hr⟩ := h
  rcases hr he with ⟨h1, h2, h3, h4⟩ | ⟨z, h1, h2⟩
  · unfold Reader.got
    rw [h1]
    dsimp only
    have hw : bs.length ≤ 4 - s.reader.read := by unfold Reader.want at hb; rw [h1] at hb; exact hb
    split
    · exact ⟨ho, fun e => nomatch e⟩
    · next hne =>
      have hl : (overwrite s.reader.sizeBuf s.reader.read bs).length = 4 := by
        simp only [overwrite, List.length_append, List.length_take, List.length_drop, h3]; omega
      have htake : (overwrite s.reader.sizeBuf s.reader.read bs).take (s.reader.read + bs.length) =
          s.reader.sizeBuf.take s.reader.read ++ bs := by
        unfold overwrite
        refine List.take_left' ?_
        simp only [List.length_append, List.length_take, h3]; omega
      have hall : (s.reader.sizeBuf.take s.reader.read ++ bs) ++ rest = stream := by
        rw [← h4, hs, List.append_assoc]
      split
      · next h4' =>
        have h4' : s.reader.read + bs.length = 4 := h4'
        have hov : overwrite s.reader.sizeBuf s.reader.read bs = s.reader.sizeBuf.take s.reader.read ++ bs := by
          rw [← htake, List.take_of_length_le (by omega)]
        have hlen : (s.reader.sizeBuf.take s.reader.read ++ bs).length = 4 := by rw [← hov]; exact hl
        have h4t : stream.take 4 = overwrite s.reader.sizeBuf s.reader.read bs := by
          rw [hov, ← hall]; exact List.take_left' hlen
        refine ⟨ho, fun _ => .inr ⟨isNegative (fromBeBytes (overwrite s.reader.sizeBuf s.reader.read bs)), ?_, ?_⟩⟩
        · rw [h4t]
          exact (top_read _).2
        · show (Reader.top _).read + rest.length + 4 = _
          rw [(top_read _).1, ← hall, List.length_append, hlen]
          show 0 + rest.length + 4 = _
          omega
      · next h4' =>
        refine ⟨ho, fun _ => .inl ⟨rfl, ?_, hl, ?_⟩⟩
        · show s.reader.read + bs.length < 4
          have : s.reader.read + bs.length ≠ 4 := h4'
          omega
        · show (overwrite s.reader.sizeBuf s.reader.read bs).take (s.reader.read + bs.length) ++ rest = stream
          rw [htake]; exact hall
  · unfold Reader.got
    rw [h1]
    dsimp only
    rw [hs, List.length_append] at h2
    rw [if_neg (by omega)]
    refine ⟨ho, fun _ => .inr ⟨z, ?_, ?_⟩⟩
    · exact (top_read _).2
    · show (Reader.top _).read + _ + 4 = _
      rw [(top_read _).1]
      show s.reader.read + bs.length + rest.length + 4 = _
      omega

theorem waits_step {T : Type} (c : Codec T) (stream : List Byte) (s : Conn T)
    (hn : stream.length < 4 + unsignedAbs (fromBeBytes (stream.take 4))) (h : Waits stream s) (a : Wire.Act) :
    Waits stream (s.step c a) := by
  have failed : ∀ e, Waits stream { s with err := some e } := fun e => ⟨h.out, fun x => nomatch x⟩
  cases he : s.err with
  | some e =>
    have : s.step c a = s := by cases a <;> simp [Conn.step, he]
    rw [this]; exact h
  | none =>
    cases a with
    | read k =>
      simp only [Conn.step, he, Option.isSome_none, Bool.false_eq_true, if_false]
      split
      · next hw =>
        have := waits_got c stream s [] s.stream rfl hn he (Nat.zero_le _) h
        exact this
      · split
        · exact h
        · have := waits_got c stream s _ _ (List.take_append_drop (min k s.reader.want) s.stream).symm hn he
            (by rw [List.length_take]; omega) h
          rw [he] at this
          exact this
    | eof =>
      simp only [Conn.step, he]
      split
      · exact h
      · exact waits_got c stream s [] s.stream rfl hn he (Nat.zero_le _) h
    | ioError => simp only [Conn.step, he]; exact failed _
    | expire =>
      simp only [Conn.step, he, Option.isSome_none, Bool.false_eq_true, if_false]
      split
      · exact h
      · exact failed _
    | cancel =>
      simp only [Conn.step, he, Option.isSome_none, Bool.false_eq_true, if_false]
      refine ⟨h.out, fun _ => ?_⟩
      show (s.reader.top.msgSize = none ∧ s.reader.top.read < 4 ∧ s.reader.top.sizeBuf.length = 4 ∧
        s.reader.top.sizeBuf.take s.reader.top.read ++ s.stream = stream) ∨ _
      rcases h.rest he with h' | ⟨z, h1, h2⟩
      · have : s.reader.top = s.reader := by unfold Reader.top; rw [h'.1]
        rw [this]; exact .inl h'
      · exact .inr ⟨z, (top_read _).2.trans h1, by
          show s.reader.top.read + s.stream.length + 4 = _
          rw [(top_read _).1]; exact h2⟩

/-- **Too few bytes for the size they announce are no message**, whatever happens on the connection. -/
theorem none_read {T : Type} (c : Codec T) (stream : List Byte)
    (hn : stream.length < 4 + unsignedAbs (fromBeBytes (stream.take 4))) (as : List Wire.Act) :
    ((Conn.new stream : Conn T).run c as).out = [] := by
  have key : ∀ (as : List Wire.Act) (s : Conn T), Waits stream s → Waits stream (s.run c as) := by
    intro as
    induction as with
    | nil => intro s h; exact h
    | cons a as ih => intro s h; exact ih _ (waits_step c stream s hn h a)
  refine (key as _ ?_).out
  exact ⟨rfl, fun _ => .inl ⟨rfl, by show 0 < 4; decide, rfl, rfl⟩⟩

/-- The size that four bytes announce, by the first of them. -/
theorem size_of_first (a b c d : Nat) (rest : List Byte) (ha : a < 128) (hb : b < 256) (hc : c < 256) (hd : d < 256) :
    a * 2 ^ 24 ≤ unsignedAbs (fromBeBytes ((a :: b :: c :: d :: rest).take 4)) := by
  have e : fromBeBytes ((a :: b :: c :: d :: rest).take 4) = a * 2 ^ 24 + b * 2 ^ 16 + c * 2 ^ 8 + d := by
    simp only [fromBeBytes, List.take_succ_cons, List.take_zero, List.foldl_cons, List.foldl_nil]
    omega
  rw [e]
  unfold unsignedAbs isNegative
  have : ¬ (2 ^ 31 ≤ a * 2 ^ 24 + b * 2 ^ 16 + c * 2 ^ 8 + d) := by omega
  simp only [ge_iff_le, this, decide_false, Bool.false_eq_true, if_false]
  omega

/-! ## Options -/

def AuthFits : ServerAuth → ClientAuth → Prop
  | .noAuth, .noAuth => True
  | .tokens u ad, .token t => t = u ∨ t = ad
  | _, _ => False

/-- The options of server and client go together. -/
def Opens (lib : Library) (so : ServerOptions) (o : ClientOptions) : Prop :=
  AuthFits so.auth o.auth ∧
  match so.tls, o.tls with
  | none, none => True
  | some (cert, key), some pinned => lib.meets cert key pinned = true
  | _, _ => False

def AuthOk : ServerAuth → Prop
  | .noAuth => True
  | .tokens u ad => IsToken u ∧ IsToken ad

def ClientOk : ClientAuth → Prop
  | .noAuth => True
  | .token t => IsToken t

/-- The token goes with the server, and what follows it is read. -/
theorem handshake_of {so : ServerOptions} {o : ClientOptions} (hs : AuthOk so.auth)
    (h : AuthFits so.auth o.auth) (requests : List Byte) :
    ∃ r, so.auth.verify (o.auth.send ++ requests) = .ok (r, requests) := by
  obtain ⟨sa, st⟩ := so
  obtain ⟨ca, ct⟩ := o
  dsimp only at hs h ⊢
  cases sa with
  | noAuth =>
    cases ca with
    | noAuth => exact ⟨_, rfl⟩
    | token t => exact h.elim
  | tokens u ad =>
    cases ca with
    | noAuth => exact h.elim
    | token t =>
      have := (Abq.Props.C37_accepted u ad hs.1 hs.2 (t ++ requests) requests).2 (by
        rcases h with rfl | rfl
        · exact .inl rfl
        · exact .inr rfl)
      exact this

theorem opens_handshake {lib : Library} {so : ServerOptions} {o : ClientOptions} (hs : AuthOk so.auth) (h : Opens lib so o)
    (requests : List Byte) : so.handshake (o.sends lib (so.proves lib) requests) = some requests := by
  obtain ⟨r, hr⟩ := handshake_of hs h.1 requests
  have h2 := h.2
  obtain ⟨sa, st⟩ := so
  obtain ⟨ca, ct⟩ := o
  dsimp only at hr h2
  cases st with
  | none =>
    cases ct with
    | none => simp [ServerOptions.handshake, ClientOptions.sends, ServerOptions.gets, hr]
    | some p => exact h2.elim
  | some ck =>
    obtain ⟨cert, key⟩ := ck
    cases ct with
    | none => exact h2.elim
    | some p =>
      have h2 : lib.meets cert key p = true := h2
      simp [ServerOptions.handshake, ClientOptions.sends, ServerOptions.gets, ServerOptions.proves, h2, hr]

theorem opens_reads {T : Type} {c : Codec T} (hc : c.Lawful) {z : Bool} {lib : Library} {so : ServerOptions} {o : ClientOptions}
    (hs : AuthOk so.auth) (h : Opens lib so o) (ms : List T) (hf : ∀ m ∈ ms, Fits c z m) (ks : List Nat) (hk : ∀ k ∈ ks, k ≠ 0)
    (hl : (frames c z ms).length ≤ ks.length) :
    so.reads c (o.sends lib (so.proves lib) (frames c z ms)) (ks.map .read) = ms.map fun m => (m, (body c z m).length) := by
  unfold ServerOptions.reads
  rw [opens_handshake hs h]
  exact Abq.Props.C35_all_delivered c hc z ms hf ks (Abq.Props.C35_progress c hc z ms hf ks hk hl)

theorem letter_bounds {b : Nat} (h : LetterOrDigit b) : 48 ≤ b ∧ b < 128 := by
  have e0 : '0'.toNat = 48 := rfl
  have e1 : '9'.toNat = 57 := rfl
  have e2 : 'A'.toNat = 65 := rfl
  have e3 : 'Z'.toNat = 90 := rfl
  have e4 : 'a'.toNat = 97 := rfl
  have e5 : 'z'.toNat = 122 := rfl
  unfold LetterOrDigit at h
  omega

/-- A stream that starts with a token and is not as long as the token would say is no message. -/
theorem token_no_message {T : Type} (c : Codec T) (t rest : List Byte) (ht : IsToken t) (hl : rest.length + 26 < 48 * 2 ^ 24)
    (as : List Wire.Act) : ((Conn.new (t ++ rest) : Conn T).run c as).out = [] := by
  obtain ⟨hlen, hall⟩ := ht
  refine none_read c _ ?_ as
  match t, hlen, hall with
  | b0 :: b1 :: b2 :: b3 :: t', hlen, hall =>
    have h0 := letter_bounds (hall b0 (by simp))
    have h1 := letter_bounds (hall b1 (by simp))
    have h2 := letter_bounds (hall b2 (by simp))
    have h3 := letter_bounds (hall b3 (by simp))
    have := size_of_first b0 b1 b2 b3 (t' ++ rest) (by omega) (by omega) (by omega) (by omega)
    show (b0 :: b1 :: b2 :: b3 :: (t' ++ rest)).length < 4 + unsignedAbs (fromBeBytes ((b0 :: b1 :: b2 :: b3 :: (t' ++ rest)).take 4))
    simp only [List.length_cons, List.length_append] at hlen ⊢
    omega

/-- The first message of a TLS client is no request. -/
theorem hello_no_message {T : Type} (c : Codec T) (lib : Library) (hr : Records lib) (p : List Nat) (as : List Wire.Act) :
    ((Conn.new (lib.hello p) : Conn T).run c as).out = [] := by
  obtain ⟨rest, e, hl, hb⟩ := hr p
  refine none_read c _ ?_ as
  rw [e]
  match rest, hl, hb with
  | [], _, _ => simp only [List.length_cons, List.length_nil]; omega
  | [x], _, _ => simp only [List.length_cons, List.length_nil]; omega
  | x :: y :: rest, hl, hb =>
    have := size_of_first 22 3 x y rest (by decide) (by decide) (hb x (by simp)) (hb y (by simp))
    simp only [List.length_cons] at hl ⊢
    omega

theorem hello_no_token (lib : Library) (hr : Records lib) (p u ad : List Nat) (hu : IsToken u) (ha : IsToken ad) :
    ∃ e, (ServerAuth.tokens u ad).verify (lib.hello p) = .error e := by
  obtain ⟨rest, e, -⟩ := hr p
  rw [Abq.Props.C37_refused u ad hu ha, e]
  have no : ∀ t, IsToken t → ¬ Auth.Presents (22 :: 3 :: rest) t := by
    rintro t ⟨hl, ht⟩ ⟨r, h⟩
    match t, hl, ht with
    | b :: t, _, ht =>
      have := letter_bounds (ht b (by simp))
      simp only [List.cons_append, List.cons.injEq] at h
      have h : (22 : Nat) = b := h.1
      omega
  rintro (h | h)
  · exact no u hu h
  · exact no ad ha h

/-- **If the options do not go together nothing is read**, whatever happens on the connection. -/
theorem unlike_reads {T : Type} {c : Codec T} (hc : c.Lawful) {z : Bool} {lib : Library} (hr : Records lib) {so : ServerOptions}
    {o : ClientOptions} (hs : AuthOk so.auth) (ho : ClientOk o.auth) (h : ¬ Opens lib so o) (ms : List T)
    (hl : (frames c z ms).length + 26 < 48 * 2 ^ 24) (as : List Wire.Act) :
    so.reads c (o.sends lib (so.proves lib) (frames c z ms)) as = [] := by
  obtain ⟨sa, st⟩ := so
  obtain ⟨ca, ct⟩ := o
  dsimp only at hs ho
  -- a token that does not go with the server
  have auth : ¬ AuthFits sa ca →
      ∀ r rest, sa.verify (ca.send ++ frames c z ms) = .ok (r, rest) → ((Conn.new rest : Conn T).run c as).out = [] := by
    intro hno r rest hv
    cases sa with
    | noAuth =>
      cases ca with
      | noAuth => exact (hno trivial).elim
      | token t =>
        cases hv
        exact token_no_message c t _ ho (by omega) as
    | tokens u ad =>
      exfalso
      cases ca with
      | noAuth =>
        cases ms with
        | nil => cases hv
        | cons m ms =>
          have hb : (body c z m).length < 48 * 2 ^ 24 := by
            rw [frames_cons] at hl
            simp only [List.length_append] at hl
            omega
          obtain ⟨e, he⟩ := Abq.Props.C37_no_token_refused c hc z u ad hs.1 hs.2 m ms hb
          rw [he] at hv; cases hv
      | token t =>
        have := (Abq.Props.C37_accepted u ad hs.1 hs.2 _ rest).1 ⟨r, hv⟩
        apply hno
        show t = u ∨ t = ad
        have l : ∀ t', IsToken t' → t ++ frames c z ms = t' ++ rest → t = t' := by
          intro t' ht' e
          exact (List.append_inj e (by rw [ho.1, ht'.1])).1
        rcases this with e | e
        · exact .inl (l u hs.1 e)
        · exact .inr (l ad hs.2 e)
  unfold ServerOptions.reads ServerOptions.handshake
  cases st with
  | none =>
    cases ct with
    | none =>
      have hno : ¬ AuthFits sa ca := fun hx => h ⟨hx, trivial⟩
      simp only [ClientOptions.sends, ServerOptions.gets, Option.isNone_none, if_true]
      cases hv : sa.verify (ca.send ++ frames c z ms) with
      | error e => rfl
      | ok x => exact auth hno x.1 x.2 hv
    | some p =>
      simp only [ClientOptions.sends, ServerOptions.gets, ServerOptions.proves, Option.isNone_none, if_true, Bool.false_eq_true, if_false]
      cases sa with
      | noAuth => exact hello_no_message c lib hr p as
      | tokens u ad =>
        obtain ⟨e, he⟩ := hello_no_token lib hr p u ad hs.1 hs.2
        rw [he]
  | some ck =>
    obtain ⟨cert, key⟩ := ck
    cases ct with
    | none => rfl
    | some p =>
      cases hm : lib.meets cert key p with
      | false => simp [ClientOptions.sends, ServerOptions.gets, ServerOptions.proves, hm]
      | true =>
        have hno : ¬ AuthFits sa ca := fun hx => h ⟨hx, hm⟩
        simp only [ClientOptions.sends, ServerOptions.gets, ServerOptions.proves, hm, Option.isSome_some, if_true]
        cases hv : sa.verify (ca.send ++ frames c z ms) with
        | error e => rfl
        | ok x => exact auth hno x.1 x.2 hv

/-! ## `abq start` -/

theorem start_eq {lib : Library} {a : StartArgs} {so : ServerOptions} (h : startOptions lib a = .ok so) :
    ((a.userToken = none ∧ a.adminToken = none ∧ so.auth = .noAuth) ∨
      ∃ u ad, a.userToken = some u ∧ a.adminToken = some ad ∧ so.auth = .tokens u ad) ∧
    ((a.tlsCert = none ∧ a.tlsKey = none ∧ so.tls = none) ∨
      ∃ cert key, a.tlsCert = some (some cert) ∧ a.tlsKey = some (some key) ∧ lib.pairOk cert key = true ∧ so.tls = some (cert, key)) := by
  obtain ⟨ut, at', tc, tk⟩ := a
  unfold startOptions at h
  dsimp only at h ⊢
  split at h
  · cases h
  · next hh =>
    rw [not_or, Decidable.not_not, Decidable.not_not] at hh
    obtain ⟨h1, h2⟩ := hh
    rcases tc with _ | _ | cert <;> rcases tk with _ | _ | key <;> simp [Config.readOpt] at h h2
    · subst h
      refine ⟨?_, .inl ⟨rfl, rfl, rfl⟩⟩
      cases ut <;> cases at' <;> simp at h1 ⊢
    · split at h
      · next hp =>
        cases h
        refine ⟨?_, .inr ⟨cert, key, rfl, rfl, hp, rfl⟩⟩
        cases ut <;> cases at' <;> simp at h1 ⊢
      · cases h

end Abq.AccessProof
