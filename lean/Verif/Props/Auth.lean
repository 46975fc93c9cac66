import Verif.Proof.Auth

/-!
# Tokens and access (C37, C38)
-/

namespace Abq.Props
open Abq.Auth
open Abq.Wire (Byte)

/-! ## C38 -/

/-- **C38.** The prefixes are those that users see. -/
theorem C38_prefixes : userPrefix = ascii "abqs_" ∧ adminPrefix = ascii "abqadmin_" := by decide

/-- **C38.** A token that was printed parses to itself. -/
theorem C38_round_trip (t : List Byte) (h : IsToken t) :
    parseUser (displayUser t) = some t ∧ parseAdmin (displayAdmin t) = some t := by
  constructor
  · exact (parseUser_iff _ _).mpr ⟨h, .inl rfl⟩
  · exact (parseAdmin_iff _ _).mpr ⟨h, .inl rfl⟩

/-- **C38.** No string is both a user's and an admin's token. -/
theorem C38_never_confused (s t t' : List Byte) (h : parseUser s = some t) (h' : parseAdmin s = some t') : False := by
  have e : ∃ r, s = userPrefix ++ r := by
    rcases ((parseUser_iff _ _).mp h).2 with rfl | ⟨g, rfl⟩
    · exact ⟨_, rfl⟩
    · exact ⟨_, by simp only [List.append_assoc]; rfl⟩
  have e' : ∃ r, s = adminPrefix ++ r := by
    rcases ((parseAdmin_iff _ _).mp h').2 with rfl | ⟨g, rfl⟩
    · exact ⟨_, rfl⟩
    · exact ⟨_, by simp only [List.append_assoc]; rfl⟩
  obtain ⟨r, rfl⟩ := e
  obtain ⟨r', e'⟩ := e'
  simp [userPrefix, adminPrefix] at e'

/-- **C38** (exact form). What parses is a token: thirty letters and digits after the prefix, followed either by nothing or
by the prefix again and anything. The second case should not parse. -/
theorem C38_what_parses_partial (s t : List Byte) :
    (parseUser s = some t ↔ IsToken t ∧ (s = userPrefix ++ t ∨ ∃ g, s = userPrefix ++ t ++ userPrefix ++ g)) ∧
    (parseAdmin s = some t ↔ IsToken t ∧ (s = adminPrefix ++ t ∨ ∃ g, s = adminPrefix ++ t ++ adminPrefix ++ g)) :=
  ⟨parseUser_iff s t, parseAdmin_iff s t⟩

/-- **C38** (for strings in which the prefix does not occur again). -/
theorem C38_exact_partial (s t : List Byte) (h : ∀ x g, s ≠ userPrefix ++ x ++ userPrefix ++ g) :
    parseUser s = some t ↔ IsToken t ∧ s = userPrefix ++ t := by
  rw [(C38_what_parses_partial s t).1]
  constructor
  · rintro ⟨h1, rfl | ⟨g, e⟩⟩
    · exact ⟨h1, rfl⟩
    · exact absurd e (h t g)
  · rintro ⟨h1, h2⟩; exact ⟨h1, .inl h2⟩

/-- A token. -/
def sampleToken : List Byte := ascii "MD2QPKH2VZU2krvOa2mN54Q4qwzNxF"

theorem sampleToken_ok : IsToken sampleToken :=
  ⟨by decide, fun b hb => (isAlphanumeric_iff b).mp (List.all_eq_true.mp
    (by decide : sampleToken.all isAlphanumeric = true) b hb)⟩

/-- **C38 fails** as stated: a token followed by the prefix again and by anything parses. -/
theorem C38_full_statement_fails :
    ¬ ∀ s t, parseUser s = some t → s = userPrefix ++ t := by
  intro h
  have := h (ascii "abqs_MD2QPKH2VZU2krvOa2mN54Q4qwzNxFabqs_!!") sampleToken (by decide)
  revert this
  decide

example : parseUser (ascii "abqs_MD2QPKH2VZU2krvOa2mN54Q4qwzNxF") = some sampleToken := by decide
example : parseUser (ascii "abqs_MD2QPKH2VZU2krvOa2mN54Q4qwzNx") = none := by decide
example : parseUser (ascii "xabqs_MD2QPKH2VZU2krvOa2mN54Q4qwzNx") = none := by decide
example : parseUser (ascii "abqadmin_MD2QPKH2VZU2krvOa2mN54Q4qwzNxF") = none := by decide
example : parseAdmin (ascii "abqadmin_MD2QPKH2VZU2krvOa2mN54Q4qwzNxF") = some sampleToken := by decide
example : parseUser (ascii "abqs_MD2QPKH2VZU2krvOa2mN54Q4qwz-xF") = none := by decide

/-! ## C37 -/

/-- **C37.** With authentication, a connection is accepted exactly if its first bytes are the user's or the admin's token,
and what the server goes on to read is what follows the token. -/
theorem C37_accepted (u a : List Byte) (hu : IsToken u) (ha : IsToken a) (stream rest : List Byte) :
    (∃ r, (ServerAuth.tokens u a).verify stream = .ok (r, rest)) ↔ (stream = u ++ rest ∨ stream = a ++ rest) := by
  constructor
  · rintro ⟨r, h⟩
    rcases (verify_tokens u a stream hu.1 ha.1 r rest).mp h with ⟨-, h⟩ | ⟨-, -, h⟩
    · exact .inl h
    · exact .inr h
  · rintro (h | h)
    · exact ⟨.client, (verify_tokens u a stream hu.1 ha.1 _ rest).mpr (.inl ⟨rfl, h⟩)⟩
    · by_cases e : u = a
      · exact ⟨.client, (verify_tokens u a stream hu.1 ha.1 _ rest).mpr (.inl ⟨rfl, by rw [e]; exact h⟩)⟩
      · exact ⟨.admin, (verify_tokens u a stream hu.1 ha.1 _ rest).mpr (.inr ⟨rfl, e, h⟩)⟩

/-- **C37.** Anything else is refused, whether it is long enough or not. -/
theorem C37_refused (u a : List Byte) (hu : IsToken u) (ha : IsToken a) (stream : List Byte) :
    (∃ e, (ServerAuth.tokens u a).verify stream = .error e) ↔ ¬ (Presents stream u ∨ Presents stream a) := by
  constructor
  · rintro ⟨e, h⟩ (⟨rest, h'⟩ | ⟨rest, h'⟩)
    · obtain ⟨r, h''⟩ := (C37_accepted u a hu ha stream rest).mpr (.inl h')
      rw [h] at h''; cases h''
    · obtain ⟨r, h''⟩ := (C37_accepted u a hu ha stream rest).mpr (.inr h')
      rw [h] at h''; cases h''
  · intro h
    cases hv : (ServerAuth.tokens u a).verify stream with
    | error e => exact ⟨e, rfl⟩
    | ok p =>
      obtain ⟨r, rest⟩ := p
      rcases (C37_accepted u a hu ha stream rest).mp ⟨r, hv⟩ with h' | h'
      · exact absurd (.inl ⟨rest, h'⟩) h
      · exact absurd (.inr ⟨rest, h'⟩) h

/-- **C37** (if the two tokens are different). As a mere client exactly if it presents the user's token, as admin exactly
if it presents the admin's. -/
theorem C37_roles_partial (u a : List Byte) (hu : IsToken u) (ha : IsToken a) (hne : u ≠ a) (stream rest : List Byte) :
    ((ServerAuth.tokens u a).verify stream = .ok (.client, rest) ↔ stream = u ++ rest) ∧
    ((ServerAuth.tokens u a).verify stream = .ok (.admin, rest) ↔ stream = a ++ rest) := by
  rw [verify_tokens u a stream hu.1 ha.1, verify_tokens u a stream hu.1 ha.1]
  simp [hne]

/-- **C37**, exactly, whatever the two tokens are: as a mere client exactly if it presents the user's token, as admin exactly if it presents
the admin's and that is another one. -/
theorem C37_roles_exact (u a : List Byte) (hu : IsToken u) (ha : IsToken a) (stream rest : List Byte) :
    ((ServerAuth.tokens u a).verify stream = .ok (.client, rest) ↔ stream = u ++ rest) ∧
    ((ServerAuth.tokens u a).verify stream = .ok (.admin, rest) ↔ stream = a ++ rest ∧ u ≠ a) := by
  by_cases hne : u = a
  · rw [verify_tokens u a stream hu.1 ha.1, verify_tokens u a stream hu.1 ha.1]
    simp [hne]
  · have h := C37_roles_partial u a hu ha hne stream rest
    exact ⟨h.1, h.2.trans ⟨fun h => ⟨h, hne⟩, fun h => h.1⟩⟩

/-- **C37 fails** if the two tokens have the same thirty characters: then presenting the admin's token makes one a
client. -/
theorem C37_full_statement_fails :
    ¬ ∀ u a rest, IsToken u → IsToken a → (ServerAuth.tokens u a).verify (a ++ rest) = .ok (.admin, rest) := by
  intro h
  have := h sampleToken sampleToken [] sampleToken_ok sampleToken_ok
  rw [verify_tokens _ _ _ sampleToken_ok.1 sampleToken_ok.1] at this
  simp at this

/-- **C37.** Who may do what: everyone accepted is a client, only admins are admins. -/
theorem C37_roles_mean (r : Role) : r.isClient = true ∧ (r.isAdmin = true ↔ r = .admin) := by cases r <;> decide

/-- **C37.** Without authentication everyone is admin, and everything is left to read. -/
theorem C37_no_auth (stream : List Byte) : ServerAuth.noAuth.verify stream = .ok (.admin, stream) := rfl

/-- **C37.** What a client with the right token sends is accepted, and the server reads the client's messages. -/
theorem C37_client_and_server {T : Type} (c : Wire.Codec T) (z : Bool) (u a : List Byte) (hu : IsToken u) (ha : IsToken a)
    (ms : List T) : (ServerAuth.tokens u a).verify ((ClientAuth.token u).send ++ Wire.frames c z ms) =
      .ok (.client, Wire.frames c z ms) :=
  (verify_tokens u a _ hu.1 ha.1 _ _).mpr (.inl ⟨rfl, rfl⟩)

/-- **C37.** A client that sends no token is refused by a server that wants one, whatever messages (below 768 MiB) it sends:
they cannot be taken for a token. -/
theorem C37_no_token_refused {T : Type} (c : Wire.Codec T) (hc : c.Lawful) (z : Bool) (u a : List Byte) (hu : IsToken u)
    (ha : IsToken a) (m : T) (ms : List T) (hm : (Wire.body c z m).length < 48 * 2 ^ 24) :
    ∃ e, (ServerAuth.tokens u a).verify (ClientAuth.noAuth.send ++ Wire.frames c z (m :: ms)) = .error e := by
  rw [C37_refused u a hu ha]
  have hpos := Wire.body_ne c hc z m
  -- the first byte of a frame is no letter or digit
  have first : ∀ b, (Wire.hdr c z m).head? = some b → ¬ LetterOrDigit b := by
    intro b hb h
    rw [← isAlphanumeric_iff] at h
    rw [Wire.hdr_eq] at hb
    simp only [isAlphanumeric, Bool.or_eq_true, Bool.and_eq_true, decide_eq_true_eq] at h
    generalize (Wire.body c z m).length = n at hm hpos hb
    have e : Wire.asI32 n = n := by unfold Wire.asI32; omega
    rw [e] at hb
    clear e
    split at hb
    · simp only [Wire.toBeBytes, List.head?_cons, Option.some.injEq, Wire.negI32] at hb
      have hb : @Eq Nat ((2 ^ 32 - n) % 2 ^ 32 / 2 ^ 24) b := hb
      omega
    · simp only [Wire.toBeBytes, List.head?_cons, Option.some.injEq] at hb
      have hb : @Eq Nat (n / 2 ^ 24) b := hb
      omega
  have no : ∀ t, IsToken t → ¬ Presents (ClientAuth.noAuth.send ++ Wire.frames c z (m :: ms)) t := by
    rintro t ⟨hl, ht⟩ ⟨rest, h⟩
    cases t with
    | nil => simp at hl
    | cons b t =>
      apply first b _ (ht b List.mem_cons_self)
      have h' := congrArg List.head? h
      simp only [ClientAuth.send, List.nil_append, List.cons_append, List.head?_cons] at h'
      rw [Wire.frames_cons] at h'
      have hh := Wire.hdr_length c z m
      cases hd : Wire.hdr c z m with
      | nil => rw [hd] at hh; simp at hh
      | cons x xs => rw [hd] at h'; simpa using h'
  rintro (h | h)
  · exact no u hu h
  · exact no a ha h

example : (ServerAuth.tokens sampleToken (sampleToken.map fun _ => 65)).verify (sampleToken ++ [1, 2]) =
    .ok (.client, [1, 2]) := rfl
example : (ServerAuth.tokens (sampleToken.map fun _ => 65) sampleToken).verify (sampleToken ++ [1, 2]) =
    .ok (.admin, [1, 2]) := rfl
example : (ServerAuth.tokens (sampleToken.map fun _ => 65) sampleToken).verify (sampleToken.take 29) =
    .error .unexpectedEof := rfl

example : parseUser (displayUser sampleToken) = some sampleToken ∧ parseAdmin (displayAdmin sampleToken) = some sampleToken :=
  C38_round_trip sampleToken ⟨by decide, by unfold LetterOrDigit; decide⟩

end Abq.Props
