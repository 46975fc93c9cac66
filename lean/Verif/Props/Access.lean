import Verif.Proof.Access
import Verif.Props.Config

/-!
# Who gets to talk to a queue (C128)

`startOptions lib a = .ok so`: `abq start` with the arguments `a` starts a queue whose servers have the options `so`.
`o.sends lib proves requests`: what a client with the options `o` puts on a connection. `so.reads c sent as`: the messages a server reads
from it, when the reads and faults on the connection are as in `as`.
-/

namespace Abq.Props
open Abq.Access Abq.Spec.Access Abq.AccessProof
open Abq.Wire (Byte)
open Abq.Auth (IsToken ServerAuth)

theorem started_ok {lib : Library} {a : StartArgs} {so : ServerOptions} (hw : StartArgs.WellFormed a) (hs : startOptions lib a = .ok so) :
    AuthOk so.auth := by
  rcases (start_eq hs).1 with ⟨-, -, e⟩ | ⟨u, ad, e1, e2, e⟩ <;> rw [e]
  · trivial
  · exact ⟨hw.1 u e1, hw.2 ad e2⟩

theorem opens_iff {lib : Library} {a : StartArgs} {so : ServerOptions} {o : ClientOptions} (hs : startOptions lib a = .ok so) :
    Opens lib so o ↔ SameToken a o ∧ SameTls lib a o := by
  obtain ⟨h1, h2⟩ := start_eq hs
  obtain ⟨ut, ad, tc, tk⟩ := a
  obtain ⟨sa, st⟩ := so
  obtain ⟨ca, ct⟩ := o
  dsimp only at h1 h2
  unfold Opens
  refine and_congr ?_ ?_
  · rcases h1 with ⟨rfl, rfl, rfl⟩ | ⟨u, ad, rfl, rfl, rfl⟩ <;> cases ca <;>
      simp [AuthFits, SameToken, tokenOf, eq_comm]
  · rcases h2 with ⟨rfl, rfl, rfl⟩ | ⟨cert, key, rfl, rfl, -, rfl⟩ <;> cases ct <;> simp [SameTls]

/-- **C128.** A queue is never less protected than was asked for: it has both tokens, and certificate and key, if any of the two was
given. -/
theorem C128_protected (lib : Library) (a : StartArgs) (so : ServerOptions) (h : startOptions lib a = .ok so) :
    (a.userToken = none ∧ a.adminToken = none ∧ so.auth = .noAuth ∨
      ∃ u ad, a.userToken = some u ∧ a.adminToken = some ad ∧ so.auth = .tokens u ad) ∧
    (a.tlsCert = none ∧ a.tlsKey = none ∧ so.tls = none ∨
      ∃ cert key, a.tlsCert = some (some cert) ∧ a.tlsKey = some (some key) ∧ lib.pairOk cert key = true ∧ so.tls = some (cert, key)) :=
  start_eq h

/-- **C128.** A queue is started if its arguments come in pairs, the files can be read and the key is that of the certificate. -/
theorem C128_starts (lib : Library) (a : StartArgs) :
    (∃ so, startOptions lib a = .ok so) ↔
      a.userToken.isSome = a.adminToken.isSome ∧
      (a.tlsCert = none ∧ a.tlsKey = none ∨
        ∃ cert key, a.tlsCert = some (some cert) ∧ a.tlsKey = some (some key) ∧ lib.pairOk cert key = true) := by
  constructor
  · rintro ⟨so, h⟩
    obtain ⟨h1, h2⟩ := start_eq h
    refine ⟨?_, ?_⟩
    · rcases h1 with ⟨e1, e2, -⟩ | ⟨u, ad, e1, e2, -⟩ <;> rw [e1, e2] <;> rfl
    · rcases h2 with ⟨e1, e2, -⟩ | ⟨c, k, e1, e2, e3, -⟩
      · exact .inl ⟨e1, e2⟩
      · exact .inr ⟨c, k, e1, e2, e3⟩
  · rintro ⟨h1, h2⟩
    unfold startOptions
    rcases h2 with ⟨e1, e2⟩ | ⟨c, k, e1, e2, e3⟩
    · rw [if_neg (by simp [h1, e1, e2]), e1, e2]; exact ⟨_, rfl⟩
    · rw [if_neg (by simp [h1, e1, e2]), e1, e2]
      simp [Config.readOpt, e3]

/-- **C128.** The requests of a client that has one of the queue's tokens and trusts its certificate are read, all of them and in order,
however they arrive. -/
theorem C128_alike {T : Type} (c : Wire.Codec T) (hc : c.Lawful) (z : Bool) (lib : Library) (a : StartArgs)
    (hw : StartArgs.WellFormed a) (so : ServerOptions) (hs : startOptions lib a = .ok so) (o : ClientOptions)
    (ht : SameToken a o) (hl : SameTls lib a o) (ms : List T) (hf : ∀ m ∈ ms, Wire.Fits c z m) (ks : List Nat) (hk : ∀ k ∈ ks, k ≠ 0)
    (hlen : (Wire.frames c z ms).length ≤ ks.length) :
    so.reads c (o.sends lib (so.proves lib) (Wire.frames c z ms)) (ks.map .read) = ms.map fun m => (m, (Wire.body c z m).length) :=
  opens_reads hc (started_ok hw hs) ((opens_iff hs).2 ⟨ht, hl⟩) ms hf ks hk hlen

/-- **C128.** Of a client that has another token or none, or a token for a queue without tokens, or uses TLS with a queue that does not,
or does not with one that does, or does not trust its certificate, no request is read, whatever happens on the connection (as long as it
sends less than 768 MiB before it is answered). -/
theorem C128_unlike {T : Type} (c : Wire.Codec T) (hc : c.Lawful) (z : Bool) (lib : Library) (hr : Records lib) (a : StartArgs)
    (hw : StartArgs.WellFormed a) (so : ServerOptions) (hs : startOptions lib a = .ok so) (o : ClientOptions)
    (ho : ∀ t, tokenOf o = some t → IsToken t) (hno : ¬ (SameToken a o ∧ SameTls lib a o)) (ms : List T)
    (hl : (Wire.frames c z ms).length + 26 < 48 * 2 ^ 24) (as : List Wire.Act) :
    so.reads c (o.sends lib (so.proves lib) (Wire.frames c z ms)) as = [] := by
  refine unlike_reads hc hr (started_ok hw hs) ?_ (fun h => hno ((opens_iff hs).1 h)) ms hl as
  obtain ⟨ca, ct⟩ := o
  cases ca with
  | noAuth => trivial
  | token t => exact ho t rfl

/-- **C128.** Whoever is at the other end and whatever they send: if a message is read by a queue that was started with tokens, it came
after one of them, and if the queue was started with a certificate, it came in a session. -/
theorem C128_any_sender {T : Type} (c : Wire.Codec T) (lib : Library) (a : StartArgs) (hw : StartArgs.WellFormed a) (so : ServerOptions)
    (hs : startOptions lib a = .ok so) (sent : Sent) (as : List Wire.Act) (h : so.reads c sent as ≠ []) :
    (∀ u ad, a.userToken = some u → a.adminToken = some ad →
      ∃ rest, sent = .clear (u ++ rest) ∨ sent = .clear (ad ++ rest) ∨ sent = .inside (u ++ rest) ∨ sent = .inside (ad ++ rest)) ∧
    (a.tlsCert ≠ none → ∃ bytes, sent = .inside bytes) := by
  have hg : ∃ bytes rest r, so.gets sent = some bytes ∧ so.auth.verify bytes = .ok (r, rest) := by
    unfold ServerOptions.reads ServerOptions.handshake at h
    cases hg : so.gets sent with
    | none => rw [hg] at h; exact (h rfl).elim
    | some bytes =>
      rw [hg] at h
      dsimp only at h
      cases hv : so.auth.verify bytes with
      | error e => rw [hv] at h; exact (h rfl).elim
      | ok x => exact ⟨bytes, x.2, x.1, rfl, hv⟩
  obtain ⟨bytes, rest, r, hg, hv⟩ := hg
  obtain ⟨h1, h2⟩ := start_eq hs
  refine ⟨fun u ad eu ea => ?_, fun hc => ?_⟩
  · rcases h1 with ⟨e, -, -⟩ | ⟨u', ad', e1, e2, e⟩
    · rw [e] at eu; cases eu
    · rw [e1] at eu; rw [e2] at ea
      cases eu; cases ea
      rw [e] at hv
      have := (C37_accepted u ad (hw.1 u e1) (hw.2 ad e2) bytes rest).1 ⟨r, hv⟩
      cases sent with
      | clear b =>
        have hb : b = bytes := by
          simp only [ServerOptions.gets] at hg
          split at hg
          · exact Option.some.inj hg
          · cases hg
        subst hb
        rcases this with rfl | rfl
        · exact ⟨rest, .inl rfl⟩
        · exact ⟨rest, .inr (.inl rfl)⟩
      | inside b =>
        have hb : b = bytes := by
          simp only [ServerOptions.gets] at hg
          split at hg
          · exact Option.some.inj hg
          · cases hg
        subst hb
        rcases this with rfl | rfl
        · exact ⟨rest, .inr (.inr (.inl rfl))⟩
        · exact ⟨rest, .inr (.inr (.inr rfl))⟩
  · rcases h2 with ⟨e, -, -⟩ | ⟨cert, key, -, -, -, e⟩
    · exact (hc e).elim
    · cases sent with
      | clear b => simp [ServerOptions.gets, e] at hg
      | inside b => exact ⟨b, rfl⟩

/-- **C128.** A client that was given a certificate writes its token and its requests into a session with a peer that has proved to have
it, and in the clear nothing but the first message of TLS. -/
theorem C128_token_kept (lib : Library) (o : ClientOptions) (pinned : List Nat) (h : o.tls = some pinned)
    (proves : List Nat → Bool) (requests : List Byte) :
    (∀ bytes, o.sends lib proves requests = .clear bytes → bytes = lib.hello pinned) ∧
    ∀ bytes, o.sends lib proves requests = .inside bytes → proves pinned = true ∧ bytes = o.auth.send ++ requests := by
  unfold ClientOptions.sends
  rw [h]
  dsimp only
  cases proves pinned <;> simp [eq_comm]

/-- **C128.** The token for users allows whatever the token for admins allows: the same messages are read, and nothing else is known of
the sender. -/
theorem C128_tokens_alike {T : Type} (c : Wire.Codec T) (lib : Library) (a : StartArgs) (hw : StartArgs.WellFormed a)
    (so : ServerOptions) (hs : startOptions lib a = .ok so) (u ad : List Byte) (hu : a.userToken = some u)
    (ha : a.adminToken = some ad) (bytes : List Byte) (as : List Wire.Act) :
    so.reads c (.clear (u ++ bytes)) as = so.reads c (.clear (ad ++ bytes)) as ∧
    so.reads c (.inside (u ++ bytes)) as = so.reads c (.inside (ad ++ bytes)) as := by
  rcases (start_eq hs).1 with ⟨e, -, -⟩ | ⟨u', ad', e1, e2, e⟩
  · rw [e] at hu; cases hu
  · rw [e1] at hu; rw [e2] at ha
    cases hu; cases ha
    obtain ⟨r, h1⟩ := (C37_accepted u ad (hw.1 u e1) (hw.2 ad e2) (u ++ bytes) bytes).2 (.inl rfl)
    obtain ⟨r', h2⟩ := (C37_accepted u ad (hw.1 u e1) (hw.2 ad e2) (ad ++ bytes) bytes).2 (.inr rfl)
    obtain ⟨sa, st⟩ := so
    dsimp only at e
    subst e
    cases st <;> simp [ServerOptions.reads, ServerOptions.handshake, ServerOptions.gets, h1, h2]

/-- A plan of `abq test` has a connection that was made by `find_or_create_abq`. -/
theorem plan_connection {w : Config.World} {a : Config.TestArgs} {p : Config.TestPlan} (h : Config.testPlan w a = .ok p) :
    ∃ l t cert, Config.findOrCreate w.tls l t cert = .ok p.connection := by
  simp only [Config.testPlan, bind, Except.bind, pure, Except.pure] at h
  repeat' split at h
  all_goals first
    | cases h; done
    | (cases h; exact ⟨_, _, _, by assumption⟩)

/-- **C128.** The queue that `abq test` starts for itself reads the requests of this `abq test`, if it is given a certificate that a
client accepts. -/
theorem C128_own_queue {T : Type} (c : Wire.Codec T) (hc : c.Lawful) (z : Bool) (lib : Library) (w : Config.World)
    (hlib : w.tls = lib.toTls) (a : Config.TestArgs) (p : Config.TestPlan) (h : Config.testPlan w a = .ok p)
    (ut : Option (List Byte)) (ck : Option (List Nat × List Nat)) (hq : p.connection.queue = .inProcess ut ck)
    (hm : ∀ cert key, ck = some (cert, key) → lib.meets cert key cert = true) (fresh : List Byte) (hfr : IsToken fresh)
    (hut : ∀ t, ut = some t → IsToken t) (ms : List T) (hf : ∀ m ∈ ms, Wire.Fits c z m) (ks : List Nat) (hk : ∀ k ∈ ks, k ≠ 0)
    (hlen : (Wire.frames c z ms).length ≤ ks.length) :
    (ownOptions fresh ut ck).reads c
      ((clientOptions p.connection).sends lib ((ownOptions fresh ut ck).proves lib) (Wire.frames c z ms)) (ks.map .read) =
      ms.map fun m => (m, (Wire.body c z m).length) := by
  obtain ⟨l, t, cert, hfc⟩ := plan_connection h
  have hcon : p.connection.token = ut ∧ ((ck = none ∧ p.connection.cert = none) ∨
      ∃ cert key, ck = some (cert, key) ∧ p.connection.cert = some cert) := by
    generalize p.connection = con at hfc hq ⊢
    unfold Config.findOrCreate at hfc
    repeat' split at hfc
    all_goals first
      | cases hfc; done
      | (cases hfc; cases hq <;> simp)
  refine opens_reads hc ?_ ?_ ms hf ks hk hlen
  · unfold ownOptions
    cases ut with
    | none => trivial
    | some u => exact ⟨hut u rfl, hfr⟩
  · obtain ⟨e1, e2⟩ := hcon
    unfold Opens ownOptions clientOptions
    refine ⟨?_, ?_⟩
    · rw [e1]; cases ut <;> simp [AuthFits]
    · rcases e2 with ⟨rfl, e⟩ | ⟨cert, key, rfl, e⟩
      · rw [e]; trivial
      · rw [e]; exact hm cert key rfl

/-- A library in which the only certificate is `[1]` with the key `[2]`. -/
def toyTls : Library where
  certOk c := c = [1]
  pairOk c k := c = [1] ∧ k = [2]
  meets c k p := c = [1] ∧ k = [2] ∧ p = [1]
  hello _ := [22, 3, 1, 0, 1, 1]

theorem toyTls_records : Records toyTls := fun _ => ⟨[1, 0, 1, 1], rfl, by decide, by decide⟩

/-- A queue with tokens and a certificate. -/
def toyStart : StartArgs := ⟨some sampleToken, some (sampleToken.map fun _ => 65), some (some [1]), some (some [2])⟩

theorem toyStart_ok : StartArgs.WellFormed toyStart := by
  refine ⟨?_, ?_⟩
  · rintro t ⟨⟩; exact sampleToken_ok
  · rintro t ⟨⟩
    refine ⟨by decide, fun b hb => ?_⟩
    obtain ⟨x, -, rfl⟩ := List.mem_map.1 hb
    exact .inr (.inl (by decide))

example : startOptions toyTls toyStart = .ok ⟨.tokens sampleToken (sampleToken.map fun _ => 65), some ([1], [2])⟩ := by
  simp [startOptions, toyStart, Config.readOpt, toyTls]

example : SameToken toyStart ⟨.token sampleToken, some [1]⟩ ∧ SameTls toyTls toyStart ⟨.token sampleToken, some [1]⟩ :=
  ⟨.inl rfl, .inr ⟨_, _, _, rfl, rfl, rfl, by decide⟩⟩

/-- One with the token and without the certificate. -/
example : ¬ (SameToken toyStart ⟨.token sampleToken, none⟩ ∧ SameTls toyTls toyStart ⟨.token sampleToken, none⟩) := by
  rintro ⟨-, ⟨-, h, -⟩ | ⟨_, _, _, h, -⟩⟩ <;> cases h

example : (⟨.tokens sampleToken (sampleToken.map fun _ => 65), some ([1], [2])⟩ : ServerOptions).reads digits
    (.inside (sampleToken ++ Wire.frames digits true [7])) ([40, 40, 40].map .read) = [(7, 1)] := by decide

example : (⟨.tokens sampleToken (sampleToken.map fun _ => 65), some ([1], [2])⟩ : ServerOptions).reads digits
    (.clear (sampleToken ++ Wire.frames digits true [7])) ([40, 40, 40].map .read) = [] := by decide

/-- `abq test --token … --tls-cert … --tls-key …` without an address starts a queue of its own with them. -/
example : (Config.testPlan { sampleWorld with tls := toyTls.toTls }
    { sampleArgs with token := some sampleToken, tlsCert := some (some [1]), tlsKey := some (some [2]) }).toOption.map
      (·.connection) = some ⟨.inProcess (some sampleToken) (some ([1], [2])), some sampleToken, some [1]⟩ := by decide

end Abq.Props
