import Verif.Spec.HostedText
import Verif.Proof.Protocol
import Verif.Props.Hosted
import Verif.Props.JsonText

namespace Abq.HostedTextProof
open RunStateDoc (Json)
open Abq.Protocol
open Abq.Hosted (Body TokenKind Reply Sending)
open Abq.HostedText Abq.Spec.HostedText

theorem ends_iff (rs : List Reply) (r : Reply) : (({} : Sending).run rs).result = some r ↔ Ends rs r := by
  have key : ∀ r, (({} : Sending).run rs).result = some r → Ends rs r := by
    intro r h
    obtain ⟨pre, post, h1, h2, h3, h4⟩ := (Props.C68_retries rs).2 r h
    have := (Props.C68_at_most_six rs).1
    exact ⟨pre, post, h1, h3, by omega, h4.imp_right (by omega)⟩
  refine ⟨key r, fun h => ?_⟩
  obtain ⟨pre, post, h1, h2, h3, h4⟩ := h
  cases hr : (({} : Sending).run rs).result with
  | none =>
    obtain ⟨h5, h6⟩ := (Props.C68_retries rs).1 hr
    rcases h4 with h4 | h4
    · exact absurd (h6 r (by rw [h1]; simp)) h4
    · rw [h1] at h5; simp at h5; omega
  | some r' =>
    obtain ⟨pre', post', h1', h2', h3', h4'⟩ := key r' hr
    rw [h1] at h1'
    have get : ∀ (a b : List Reply) (x y : Reply) (c d : List Reply), a ++ x :: c = b ++ y :: d → a.length < b.length → x ∈ b := by
      intro a b x y c d e hl
      have h5 : (a ++ x :: c)[a.length]? = some x := by simp
      rw [e, List.getElem?_append_left hl] at h5
      exact List.mem_of_getElem? h5
    rcases Nat.lt_trichotomy pre.length pre'.length with hl | hl | hl
    · have := h2' r (get _ _ _ _ _ _ h1' hl)
      have := h4.resolve_left (fun h => h this)
      omega
    · have := List.append_inj h1' hl
      have := List.cons.inj this.2
      rw [this.1]
    · have := h2 r' (get _ _ _ _ _ _ h1'.symm hl)
      have := h4'.resolve_left (fun h => h this)
      omega

theorem reads_kind : Reads decKind SaysKind := by
  intro j k
  unfold decKind SaysKind Abq.Messages.variant
  constructor
  · intro h
    split at h
    · next e =>
      cases h
      split at e
      · cases e; exact .inl rfl
      · cases e; exact .inr rfl
      · cases e
    · next e =>
      cases h
      split at e
      · cases e; exact .inl rfl
      · cases e; exact .inr rfl
      · cases e
    · cases h
  · intro h
    cases k with
    | personal => rcases h with rfl | rfl <;> rfl
    | organization => rcases h with rfl | rfl <;> rfl

theorem maybe_iff (j : Json) (c : Option String) :
    decMaybe j = some c ↔ (match c with | none => j = .null | some t => j = .str t) := by
  cases c <;> cases j <;> simp [decMaybe, decStr]

theorem success_iff (urls : Urls) (j : Json) (addrs : Option (List String)) (query : List (String × String)) (cert : Option (List Nat))
    (kind : TokenKind) : decSuccess urls j = some (.success addrs query cert kind) ↔
      ∃ c, cert = c.map utf8 ∧ NamesQueue urls j addrs query c kind := by
  unfold NamesQueue
  have hurl : Reads (fun j => (decStr j).bind urls) (fun u j => ∃ url, j = .str url ∧ urls url = some u) := by
    intro j u
    cases j <;> simp [decStr]
  unfold decSuccess
  split
  · next ms =>
    simp only [Option.bind_eq_some_iff, Option.map_eq_some_iff, reqField_iff hurl, optField_iff reads_str rfl, reqField_iff reads_kind]
    constructor
    · rintro ⟨⟨a, q⟩, ⟨j, h1, url, rfl, h2⟩, c, h3, k, h4, e⟩
      cases e
      exact ⟨c, rfl, url, h2, .inl ⟨ms, rfl, h1, h3, h4⟩⟩
    · rintro ⟨c, rfl, url, h2, ⟨ms', e, h1, h3, h4⟩ | ⟨_, _, e, _⟩⟩
      · cases e
        exact ⟨(addrs, query), ⟨_, h1, url, rfl, h2⟩, c, h3, kind, h4, rfl⟩
      · cases e
  · next u cj k =>
    constructor
    · intro h
      obtain ⟨⟨a, q⟩, h1, h⟩ := Option.bind_eq_some_iff.1 h
      obtain ⟨c, h3, h⟩ := Option.bind_eq_some_iff.1 h
      obtain ⟨kd, h4, h⟩ := Option.map_eq_some_iff.1 h
      cases h
      obtain ⟨url, rfl, h2⟩ := (hurl u _).1 h1
      exact ⟨c, rfl, url, h2, .inr ⟨cj, k, rfl, (maybe_iff cj c).1 h3, (reads_kind k kind).1 h4⟩⟩
    · rintro ⟨c, rfl, url, h2, ⟨ms', e, _⟩ | ⟨c', k', e, h3, h4⟩⟩
      · cases e
      · cases e
        refine Option.bind_eq_some_iff.2 ⟨(addrs, query), (hurl _ _).2 ⟨url, rfl, h2⟩, ?_⟩
        refine Option.bind_eq_some_iff.2 ⟨c, (maybe_iff _ c).2 h3, ?_⟩
        exact Option.map_eq_some_iff.2 ⟨kind, (reads_kind _ kind).2 h4, rfl⟩
  · next hno hna =>
    constructor
    · intro h; cases h
    · rintro ⟨c, rfl, url, h2, ⟨ms', e, _⟩ | ⟨c', k', e, _⟩⟩
      · exact absurd e (hno _)
      · exact absurd e (hna _ _ _)

theorem success_only (urls : Urls) (j : Json) (kind : TokenKind) (e : String) : decSuccess urls j ≠ some (.unsupported kind e) := by
  unfold decSuccess
  intro h
  split at h
  · simp only [Option.bind_eq_some_iff, Option.map_eq_some_iff] at h
    obtain ⟨_, _, _, _, _, _, h⟩ := h
    cases h
  · simp only [Option.bind_eq_some_iff, Option.map_eq_some_iff] at h
    obtain ⟨_, _, _, _, _, _, h⟩ := h
    cases h
  · cases h

theorem unsupported_iff (j : Json) (b : Body) : decUnsupported j = some b ↔ ∃ kind why, b = .unsupported kind why ∧ Refuses j why kind := by
  unfold Refuses decUnsupported
  split
  · next ms =>
    simp only [Option.bind_eq_some_iff, Option.map_eq_some_iff, reqField_iff reads_str, reqField_iff reads_kind]
    constructor
    · rintro ⟨k, h1, e, h2, rfl⟩
      exact ⟨k, e, rfl, .inl ⟨ms, rfl, h1, h2⟩⟩
    · rintro ⟨k, e, rfl, ⟨ms', e', h1, h2⟩ | ⟨_, e', _⟩⟩
      · cases e'
        exact ⟨k, h1, e, h2, rfl⟩
      · cases e'
  · next k e =>
    constructor
    · intro h
      obtain ⟨kd, h1, h⟩ := Option.bind_eq_some_iff.1 h
      obtain ⟨w, h2, h⟩ := Option.map_eq_some_iff.1 h
      have h2 := (reads_str _ _).1 h2
      exact ⟨kd, w, h.symm, .inr ⟨k, by rw [h2], (reads_kind _ _).1 h1⟩⟩
    · rintro ⟨kd, w, rfl, ⟨ms', e', _⟩ | ⟨k', e', h1⟩⟩
      · cases e'
      · cases e'
        exact Option.bind_eq_some_iff.2 ⟨kd, (reads_kind _ _).2 h1, rfl⟩
  · next hno hna =>
    constructor
    · intro h; cases h
    · rintro ⟨kd, w, rfl, ⟨ms', e', _⟩ | ⟨k', e', h1⟩⟩
      · exact absurd e' (hno _)
      · exact absurd e' (hna _ _)

theorem body_iff (urls : Urls) (j : Json) (b : Body) : decBody urls j = some b ↔
    (∃ addrs query cert kind, b = .success addrs query (cert.map utf8) kind ∧ NamesQueue urls j addrs query cert kind) ∨
    (∃ kind why, b = .unsupported kind why ∧ Refuses j why kind ∧ ¬ ∃ addrs query cert kind, NamesQueue urls j addrs query cert kind) := by
  unfold decBody
  cases h : decSuccess urls j with
  | some b' =>
    simp only [Option.or]
    cases b' with
    | unsupported k e => exact absurd h (success_only urls j k e)
    | success addrs query cert kind =>
      obtain ⟨c, rfl, hn⟩ := (success_iff ..).1 h
      constructor
      · intro e; cases e; exact .inl ⟨_, _, _, _, rfl, hn⟩
      · rintro (⟨a, q, c', k, rfl, hn'⟩ | ⟨_, _, _, _, hno⟩)
        · have := (success_iff urls j a q (c'.map utf8) k).2 ⟨c', rfl, hn'⟩
          rw [h] at this; exact this
        · exact absurd ⟨_, _, _, _, hn⟩ hno
  | none =>
    simp only [Option.or]
    have hno : ¬ ∃ addrs query cert kind, NamesQueue urls j addrs query cert kind := by
      rintro ⟨a, q, c, k, hn⟩
      have := (success_iff urls j a q (c.map utf8) k).2 ⟨c, rfl, hn⟩
      rw [h] at this; cases this
    rw [unsupported_iff]
    constructor
    · rintro ⟨k, w, e, hr⟩; exact .inr ⟨k, w, e, hr, hno⟩
    · rintro (⟨a, q, c, k, -, hn⟩ | ⟨k, w, e, hr, -⟩)
      · exact absurd ⟨_, _, _, _, hn⟩ hno
      · exact ⟨k, w, e, hr⟩

end Abq.HostedTextProof
