import Verif.Proof.HostedText
import Verif.Props.Auth

/-!
# C130: what is said to the hosted API and what it says

From the address of the API, the answers it gives one after the other and the text of the last one, to the queue that is used or the
error that is shown; and the text of the message about a run.
-/

namespace Abq.Props
open RunStateDoc (Json)
open Abq.Protocol (Only Given Maybe SaysStr)
open Abq.Hosted (Body TokenKind Reply Sending QueueConfig QueryValue fromBody)
open Abq.HostedText Abq.Spec.HostedText Abq.HostedTextProof

/-- C130: which documents are read as an answer, and as what: one that names a queue as that, one that does not and says why as a
refusal, and no other. -/
theorem C130_body (urls : Urls) (j : Json) (b : Body) : decBody urls j = some b ↔
    (∃ addrs query cert kind, b = .success addrs query (cert.map utf8) kind ∧ NamesQueue urls j addrs query cert kind) ∨
    (∃ kind why, b = .unsupported kind why ∧ Refuses j why kind ∧ ¬ ∃ addrs query cert kind, NamesQueue urls j addrs query cert kind) :=
  body_iff urls j b

namespace HostedApi

theorem token_iff (t : String) (token : List Nat) : Hosted.userToken t = some token ↔ TokenText t token :=
  (C38_what_parses_partial (Auth.ascii t) token).1

/-- What follows the requests. -/
def after (f : JsonText.Floats) (urls : Urls) (runId : String) (text : List JsonText.Byte) : Reply → Except Error QueueConfig
  | .transport => .error .other
  | .status code =>
    if 400 ≤ code && code < 600 then .error (ofStatus code)
    else
      match (JsonText.parse f text).bind (decBody urls) with
      | none => .error .other
      | some b =>
        match fromBody runId b with
        | .ok q => .ok q
        | .error e => .error (ofAnswer e)

theorem fromApi_iff (f : JsonText.Floats) (urls : Urls) (base : Bool) (runId : String) (replies : List Reply)
    (text : List JsonText.Byte) (r : Except Error QueueConfig) : fromApi f urls base runId replies text = some r ↔
      (base = false ∧ r = .error .invalidUrl) ∨ (base = true ∧ ∃ x, Ends replies x ∧ after f urls runId text x = r) := by
  unfold fromApi
  cases base with
  | false => simp [eq_comm]
  | true =>
    rw [if_pos rfl]
    cases hr : (({} : Sending).run replies).result with
    | none =>
      constructor
      · intro h; cases h
      · rintro (⟨h, -⟩ | ⟨-, x, hx, -⟩)
        · cases h
        · rw [(ends_iff replies x).2 hx] at hr; cases hr
    | some y =>
      have hy := (ends_iff replies y).1 hr
      have key : ∀ o : Option (Except Error QueueConfig), o = some (after f urls runId text y) → (o = some r ↔
          (true = false ∧ r = .error .invalidUrl) ∨ (true = true ∧ ∃ x, Ends replies x ∧ after f urls runId text x = r)) := by
        rintro o rfl
        constructor
        · intro h
          exact .inr ⟨rfl, y, hy, Option.some.inj h⟩
        · rintro (⟨h, -⟩ | ⟨-, x, hx, e⟩)
          · cases h
          · have := (ends_iff replies x).2 hx
            rw [hr] at this
            cases this
            rw [e]
      refine key _ ?_
      cases y with
      | transport => rfl
      | status code =>
        simp only [after]
        split
        · rfl
        · cases (JsonText.parse f text).bind (decBody urls) with
          | none => rfl
          | some b =>
            simp only
            cases fromBody runId b <;> rfl

theorem after_ok (f : JsonText.Floats) (urls : Urls) (runId : String) (text : List JsonText.Byte) (x : Reply) (q : QueueConfig) :
    after f urls runId text x = .ok q ↔ (∃ code, x = .status code ∧ ¬ (400 ≤ code ∧ code < 600)) ∧
      ∃ j b, JsonText.parse f text = some j ∧ decBody urls j = some b ∧ fromBody runId b = .ok q := by
  cases x with
  | transport => simp [after]
  | status code =>
    simp only [after]
    by_cases hc : 400 ≤ code ∧ code < 600
    · rw [if_pos (by simp; omega)]
      constructor
      · intro h; cases h
      · rintro ⟨⟨c, e, h⟩, -⟩; cases e; exact absurd hc h
    · rw [if_neg (by simp; omega)]
      constructor
      · intro h
        refine ⟨⟨code, rfl, hc⟩, ?_⟩
        cases hb : (JsonText.parse f text).bind (decBody urls) with
        | none => rw [hb] at h; cases h
        | some b =>
          rw [hb] at h
          obtain ⟨j, h1, h2⟩ := Option.bind_eq_some_iff.1 hb
          refine ⟨j, b, h1, h2, ?_⟩
          simp only at h
          cases he : fromBody runId b with
          | ok q' => rw [he] at h; cases h; rfl
          | error e => rw [he] at h; cases h
      · rintro ⟨-, j, b, h1, h2, h3⟩
        rw [h1, Option.bind_some, h2]
        simp only [h3]

theorem after_error (f : JsonText.Floats) (urls : Urls) (runId : String) (text : List JsonText.Byte) (x : Reply) (e : Error) :
    after f urls runId text x = .error e ↔
      (x = .transport ∧ e = .other) ∨ (∃ code, x = .status code ∧ 400 ≤ code ∧ code < 600 ∧ e = ofStatus code) ∨
      (∃ code, x = .status code ∧ ¬ (400 ≤ code ∧ code < 600) ∧
        (((JsonText.parse f text).bind (decBody urls) = none ∧ e = .other) ∨
         ∃ j b e', JsonText.parse f text = some j ∧ decBody urls j = some b ∧ fromBody runId b = .error e' ∧ e = ofAnswer e')) := by
  cases x with
  | transport => simp [after, eq_comm]
  | status code =>
    simp only [after]
    by_cases hc : 400 ≤ code ∧ code < 600
    · rw [if_pos (by simp; omega)]
      constructor
      · intro h; cases h; exact .inr (.inl ⟨code, rfl, hc.1, hc.2, rfl⟩)
      · rintro (⟨h, -⟩ | ⟨c, h, -, -, rfl⟩ | ⟨c, h, hn, -⟩)
        · cases h
        · cases h; rfl
        · cases h; exact absurd hc hn
    · rw [if_neg (by simp; omega)]
      cases hb : (JsonText.parse f text).bind (decBody urls) with
      | none =>
        constructor
        · intro h; cases h; exact .inr (.inr ⟨code, rfl, hc, .inl ⟨rfl, rfl⟩⟩)
        · rintro (⟨h, -⟩ | ⟨c, h, h1, h2, -⟩ | ⟨c, h, -, ⟨-, rfl⟩ | ⟨j, b, e', h1, h2, -⟩⟩)
          · cases h
          · cases h; exact absurd ⟨h1, h2⟩ hc
          · rfl
          · rw [h1, Option.bind_some, h2] at hb; cases hb
      | some b =>
        obtain ⟨j, h1, h2⟩ := Option.bind_eq_some_iff.1 hb
        simp only
        cases he : fromBody runId b with
        | ok q =>
          constructor
          · intro h; cases h
          · rintro (⟨h, -⟩ | ⟨c, h, h1, h2, -⟩ | ⟨c, h, -, ⟨h, -⟩ | ⟨j', b', e', h3, h4, h5, -⟩⟩)
            · cases h
            · cases h; exact absurd ⟨h1, h2⟩ hc
            · cases h
            · rw [h1] at h3; cases h3; rw [h2] at h4; cases h4; rw [he] at h5; cases h5
        | error e' =>
          constructor
          · intro h; cases h; exact .inr (.inr ⟨code, rfl, hc, .inr ⟨j, b, e', h1, h2, he, rfl⟩⟩)
          · rintro (⟨h, -⟩ | ⟨c, h, h1, h2, -⟩ | ⟨c, h, -, ⟨h, -⟩ | ⟨j', b', e'', h3, h4, h5, rfl⟩⟩)
            · cases h
            · cases h; exact absurd ⟨h1, h2⟩ hc
            · cases h
            · rw [h1] at h3; cases h3; rw [h2] at h4; cases h4; rw [he] at h5; cases h5; rfl

/-- The errors of a body: one of the schema, unless all is there and the run is another one. -/
theorem fromBody_error (runId : String) (b : Body) (e : Hosted.ApiErr) (h : fromBody runId b = .error e) :
    (∃ what, e = .schema what) ∨ e = .runIdDiffers := by
  unfold fromBody at h
  split at h
  · split at h
    · split at h
      · cases h; exact .inl ⟨_, rfl⟩
      · split at h
        · cases h; exact .inl ⟨_, rfl⟩
        · split at h
          · cases h; exact .inl ⟨_, rfl⟩
          · split at h
            · cases h; exact .inr rfl
            · cases h
    · cases h; exact .inl ⟨_, rfl⟩
    · cases h; exact .inl ⟨_, rfl⟩
  · cases h

theorem fromBody_success (runId : String) (addrs : Option (List String)) (query : List (String × String)) (cert : Option (List Nat))
    (k kind : TokenKind) (why : String) : fromBody runId (.success addrs query cert k) ≠ .ok (.unsupported kind why) := by
  intro h
  simp only [fromBody] at h
  split at h
  · split at h
    · cases h
    · split at h
      · cases h
      · split at h
        · cases h
        · split at h <;> cases h
  · cases h
  · cases h

theorem fromBody_other (runId : String) (b : Body) : fromBody runId b = .error .runIdDiffers ↔
    ∃ addr query cert kind t token r, b = .success (some [addr]) query cert kind ∧ QueryValue query "token" t ∧
      TokenText t token ∧ QueryValue query "run_id" r ∧ r ≠ runId := by
  simp only [← queryGet_iff, ← token_iff]
  constructor
  · intro h
    unfold fromBody at h
    split at h
    · next query cert kind =>
      split at h
      · next addr =>
        split at h
        · cases h
        · next t ht =>
          split at h
          · cases h
          · next token htok =>
            split at h
            · cases h
            · next r hr =>
              split at h
              · next hne => exact ⟨addr, query, cert, kind, t, token, r, rfl, ht, htok, hr, hne⟩
              · cases h
      · cases h
      · cases h
    · cases h
  · rintro ⟨addr, query, cert, kind, t, token, r, rfl, ht, htok, hr, hne⟩
    simp [fromBody, ht, htok, hr, hne]

end HostedApi
open HostedApi

/-- C130: there is an outcome as soon as the requests ended, and at once if the address of the API is none. -/
theorem C130_ends (f : JsonText.Floats) (urls : Urls) (base : Bool) (runId : String) (replies : List Reply) (text : List JsonText.Byte) :
    (fromApi f urls base runId replies text ≠ none ↔ base = false ∨ ∃ r, Ends replies r) ∧
    (fromApi f urls base runId replies text = some (.error .invalidUrl) ↔ base = false) := by
  constructor
  · rw [Option.ne_none_iff_exists']
    constructor
    · rintro ⟨r, h⟩
      rcases (fromApi_iff ..).1 h with ⟨h, -⟩ | ⟨-, x, h, -⟩
      · exact .inl h
      · exact .inr ⟨x, h⟩
    · intro h
      cases hb : base with
      | false => exact ⟨_, (fromApi_iff ..).2 (.inl ⟨rfl, rfl⟩)⟩
      | true =>
        rw [hb] at h
        obtain ⟨x, hx⟩ := h.resolve_left (fun h => Bool.noConfusion h)
        exact ⟨_, (fromApi_iff ..).2 (.inr ⟨rfl, x, hx, rfl⟩)⟩
  · rw [fromApi_iff]
    constructor
    · rintro (⟨h, -⟩ | ⟨-, x, -, h⟩)
      · exact h
      · rw [after_error] at h
        rcases h with ⟨-, h⟩ | ⟨c, -, -, -, h⟩ | ⟨c, -, -, ⟨-, h⟩ | ⟨_, _, e, -, -, -, h⟩⟩
        · cases h
        · unfold ofStatus at h; split at h <;> first | cases h | (split at h <;> cases h)
        · cases h
        · cases e <;> cases h
    · intro h; exact .inl ⟨h, rfl⟩

/-- C130: a user is told that the access token is not known, or not allowed, exactly if that is what the API said in the end. -/
theorem C130_told (f : JsonText.Floats) (urls : Urls) (runId : String) (replies : List Reply) (text : List JsonText.Byte) :
    (fromApi f urls true runId replies text = some (.error .unauthenticated) ↔ Ends replies (.status 401)) ∧
    (fromApi f urls true runId replies text = some (.error .unauthorized) ↔ Ends replies (.status 403)) := by
  have no : ∀ e, ofAnswer e ≠ .unauthenticated ∧ ofAnswer e ≠ .unauthorized := by
    intro e; cases e <;> exact ⟨nofun, nofun⟩
  have st : ∀ c, (ofStatus c = .unauthenticated ↔ c = 401) ∧ (ofStatus c = .unauthorized ↔ c = 403) := by
    intro c
    unfold ofStatus
    by_cases h1 : c = 401
    · subst h1; decide
    · by_cases h2 : c = 403
      · subst h2; decide
      · rw [if_neg h1, if_neg h2]; simp [h1, h2]
  refine ⟨?_, ?_⟩ <;> rw [fromApi_iff]
  · constructor
    · rintro (⟨h, -⟩ | ⟨-, x, hx, h⟩)
      · cases h
      · rw [after_error] at h
        rcases h with ⟨-, h⟩ | ⟨c, rfl, -, -, h⟩ | ⟨c, -, -, ⟨-, h⟩ | ⟨_, _, e, -, -, -, h⟩⟩
        · cases h
        · cases (st c).1.1 h.symm; exact hx
        · cases h
        · exact absurd h.symm (no e).1
    · intro hx
      exact .inr ⟨rfl, _, hx, (after_error ..).2 (.inr (.inl ⟨401, rfl, by decide, by decide, rfl⟩))⟩
  · constructor
    · rintro (⟨h, -⟩ | ⟨-, x, hx, h⟩)
      · cases h
      · rw [after_error] at h
        rcases h with ⟨-, h⟩ | ⟨c, rfl, -, -, h⟩ | ⟨c, -, -, ⟨-, h⟩ | ⟨_, _, e, -, -, -, h⟩⟩
        · cases h
        · cases (st c).2.1 h.symm; exact hx
        · cases h
        · exact absurd h.symm (no e).2
    · intro hx
      exact .inr ⟨rfl, _, hx, (after_error ..).2 (.inr (.inl ⟨403, rfl, by decide, by decide, rfl⟩))⟩

/-- C130: a queue is used exactly if the last answer is not an error, and its text names that queue: a URL that resolves to the address
alone, with the token and this run's id in its query, the certificate, and the kind of the access token. -/
theorem C130_queue (f : JsonText.Floats) (urls : Urls) (runId : String) (replies : List Reply) (text : List JsonText.Byte)
    (addr r : String) (token : List Nat) (cert : Option (List Nat)) (kind : TokenKind) :
    fromApi f urls true runId replies text = some (.ok (.success addr r token cert kind)) ↔
      ∃ j query c t, Answered f replies text j ∧ NamesQueue urls j (some [addr]) query c kind ∧ cert = c.map utf8 ∧ r = runId ∧
        QueryValue query "run_id" runId ∧ QueryValue query "token" t ∧ TokenText t token := by
  rw [fromApi_iff]
  constructor
  · rintro (⟨h, -⟩ | ⟨-, x, hx, h⟩)
    · cases h
    · obtain ⟨⟨code, rfl, hc⟩, j, b, h1, h2, h3⟩ := (after_ok ..).1 h
      obtain ⟨query, t, rfl, h4, h5, h6, h7⟩ := (C69_answer ..).1 h3
      rcases (body_iff ..).1 h2 with ⟨a, q, c, k, e, hn⟩ | ⟨_, _, e, _⟩
      · cases e
        exact ⟨j, query, c, t, ⟨⟨code, hx, hc⟩, h1⟩, hn, rfl, h4, h5, h6, (token_iff t token).1 h7⟩
      · cases e
  · rintro ⟨j, query, c, t, ⟨⟨code, hx, hc⟩, h1⟩, hn, rfl, h4, h5, h6, h7⟩
    refine .inr ⟨rfl, _, hx, (after_ok ..).2 ⟨⟨code, rfl, hc⟩, j, _, h1, (body_iff ..).2 (.inl ⟨_, _, _, _, rfl, hn⟩), ?_⟩⟩
    exact (C69_answer ..).2 ⟨query, t, rfl, h4, h5, h6, (token_iff t token).2 h7⟩

/-- C130: the reason why there is no queue to be used is given exactly if the last answer, which is not an error, gives it, and does not
name a queue. -/
theorem C130_refused (f : JsonText.Floats) (urls : Urls) (runId : String) (replies : List Reply) (text : List JsonText.Byte)
    (why : String) (kind : TokenKind) :
    fromApi f urls true runId replies text = some (.ok (.unsupported kind why)) ↔
      ∃ j, Answered f replies text j ∧ Refuses j why kind ∧ ¬ ∃ addrs query cert kind, NamesQueue urls j addrs query cert kind := by
  rw [fromApi_iff]
  constructor
  · rintro (⟨h, -⟩ | ⟨-, x, hx, h⟩)
    · cases h
    · obtain ⟨⟨code, rfl, hc⟩, j, b, h1, h2, h3⟩ := (after_ok ..).1 h
      rcases (body_iff ..).1 h2 with ⟨a, q, c, k, rfl, hn⟩ | ⟨k, w, rfl, h4⟩
      · exact absurd h3 (fromBody_success _ _ _ _ _ _ _)
      · cases h3
        exact ⟨j, ⟨⟨code, hx, hc⟩, h1⟩, h4⟩
  · rintro ⟨j, ⟨⟨code, hx, hc⟩, h1⟩, h4⟩
    exact .inr ⟨rfl, _, hx, (after_ok ..).2 ⟨⟨code, rfl, hc⟩, j, _, h1, (body_iff ..).2 (.inr ⟨_, _, rfl, h4⟩), rfl⟩⟩

/-- C130: the answer is called one with an unexpected schema exactly if it names a queue, but not by a URL that resolves to one address
and has a token and the id of some run in its query. -/
theorem C130_schema (f : JsonText.Floats) (urls : Urls) (runId : String) (replies : List Reply) (text : List JsonText.Byte) :
    fromApi f urls true runId replies text = some (.error .schema) ↔
      ∃ j addrs query c kind, Answered f replies text j ∧ NamesQueue urls j addrs query c kind ∧
        ¬ ∃ addr t token r, addrs = some [addr] ∧ QueryValue query "token" t ∧ TokenText t token ∧ QueryValue query "run_id" r := by
  rw [fromApi_iff]
  constructor
  · rintro (⟨-, h⟩ | ⟨-, x, hx, h⟩)
    · cases h
    · rcases (after_error ..).1 h with ⟨-, h⟩ | ⟨c, -, -, -, h⟩ | ⟨code, rfl, hc, ⟨-, h⟩ | ⟨j, b, e, h1, h2, h3, h4⟩⟩
      · cases h
      · unfold ofStatus at h; split at h <;> first | cases h | (split at h <;> cases h)
      · cases h
      · rcases (body_iff ..).1 h2 with ⟨a, q, c, k, rfl, hn⟩ | ⟨k, w, rfl, -⟩
        · refine ⟨j, a, q, c, k, ⟨⟨code, hx, hc⟩, h1⟩, hn, ?_⟩
          rintro ⟨addr, t, token, r, rfl, h5, h6, h7⟩
          by_cases hr : r = runId
          · subst hr
            have := (C69_answer r _ addr r token (c.map utf8) k).2 ⟨q, t, rfl, rfl, h7, h5, (token_iff t token).2 h6⟩
            rw [h3] at this; cases this
          · have := (fromBody_other runId _).2 ⟨addr, q, c.map utf8, k, t, token, r, rfl, h5, h6, h7, hr⟩
            rw [h3] at this; cases this; cases h4
        · cases h3
  · rintro ⟨j, a, q, c, k, ⟨⟨code, hx, hc⟩, h1⟩, hn, hno⟩
    refine .inr ⟨rfl, _, hx, (after_error ..).2 (.inr (.inr ⟨code, rfl, hc, .inr ⟨j, .success a q (c.map utf8) k, ?_⟩⟩))⟩
    have h2 := (body_iff urls j (.success a q (c.map utf8) k)).2 (.inl ⟨_, _, _, _, rfl, hn⟩)
    cases h3 : fromBody runId (.success a q (c.map utf8) k) with
    | ok cfg =>
      exfalso
      cases cfg with
      | success addr r token cert kind =>
        obtain ⟨query, t, e, h4, h5, h6, h7⟩ := (C69_answer ..).1 h3
        cases e
        exact hno ⟨addr, t, token, _, rfl, h6, (token_iff t token).1 h7, h5⟩
      | unsupported kind w =>
        have := (C130_refused f urls runId replies text w kind).1 ((fromApi_iff ..).2 (.inr ⟨rfl, _, hx,
          (after_ok ..).2 ⟨⟨code, rfl, hc⟩, j, _, h1, h2, h3⟩⟩))
        obtain ⟨j', ⟨-, h1'⟩, -, hn'⟩ := this
        rw [h1] at h1'; cases h1'
        exact hn' ⟨_, _, _, _, hn⟩
    | error e =>
      rcases fromBody_error _ _ _ h3 with ⟨w, rfl⟩ | rfl
      · exact ⟨_, h1, h2, rfl, rfl⟩
      · exfalso
        obtain ⟨addr, query, cert, kind, t, token, r, e, h5, h6, h7, -⟩ := (fromBody_other ..).1 h3
        cases e
        exact hno ⟨addr, t, token, r, rfl, h5, h6, h7⟩

/-- C130: the message about a run can be read by any reader of JSON, and this is what it says: the id of the run, and the name, version
and host of the native runner. -/
theorem C130_recorded (f : JsonText.Floats) (r : WorkerExit.Request) : JsonText.parse f (recordText r) =
    some (.obj [("run_id", .str r.runId), ("native_runner_specification",
      .obj [("name", .str r.spec.name), ("version", .str r.spec.version), ("host", .str r.spec.host)])]) := by
  refine C100_text_roundtrip_partial f (encRecord r) ?_ ?_
  · simp [encRecord, Messages.struct, Messages.present, Spec.JsonText.Holdable, Spec.JsonText.HoldableMembers]
  · simp [encRecord, Messages.struct, Messages.present, Spec.JsonText.depth, Spec.JsonText.memberDepths]

namespace HostedApi

/-- A library of URLs that knows two. -/
def someUrls : Urls := fun u =>
  if u = "u" then some (some ["1.2.3.4:80"], [("run_id", "r"), ("token", "abqs_MD2QPKH2VZU2krvOa2mN54Q4qwzNxF")])
  else if u = "v" then some (none, [])
  else none

/-- An answer that names a queue, with a member nobody asked for, and one that refuses. -/
def named (url : String) : Json :=
  .obj [("rwx_access_token_kind", .str "personal_access_token"), ("region", .str "eu"), ("queue_url", .str url)]
def refused : Json := .obj [("rwx_access_token_kind", .str "organization_access_token"), ("usage_error", .str "no")]

theorem named_names : NamesQueue someUrls (named "u") (some ["1.2.3.4:80"])
    [("run_id", "r"), ("token", "abqs_MD2QPKH2VZU2krvOa2mN54Q4qwzNxF")] none .personal :=
  ⟨"u", rfl, .inl ⟨_, rfl, by unfold Only; rfl, .inl (by unfold Protocol.Absent; decide), _, rfl, .inl rfl⟩⟩

theorem answered (f : JsonText.Floats) (j : Json) (h : Spec.JsonText.Holdable f j) (hd : Spec.JsonText.depth j < 128) :
    Answered f [.status 503, .status 200, .status 401] (JsonText.print j) j :=
  ⟨⟨200, ⟨[.status 503], [.status 401], rfl, by simp [Reply.Retried], by decide, .inl (by simp [Reply.Retried])⟩, by decide⟩,
   C100_text_roundtrip_partial f j h hd⟩

end HostedApi

/-- A queue is named after a server error, and used. -/
example (f : JsonText.Floats) : fromApi f someUrls true "r" [.status 503, .status 200, .status 401] (JsonText.print (named "u")) =
    some (.ok (.success "1.2.3.4:80" "r" sampleToken none .personal)) :=
  (C130_queue ..).2 ⟨_, _, none, _, answered f _ (by simp [named, Spec.JsonText.Holdable, Spec.JsonText.HoldableMembers])
      (by simp [named, Spec.JsonText.depth, Spec.JsonText.memberDepths]), named_names, rfl, rfl,
    ⟨[], [("token", _)], rfl, by simp⟩, ⟨[("run_id", "r")], [], rfl, by simp⟩, sampleToken_ok, .inl (by decide)⟩

/-- The same for another run is an error, which is none of the schema. -/
example (f : JsonText.Floats) : ¬ fromApi f someUrls true "s" [.status 503, .status 200, .status 401] (JsonText.print (named "u")) =
    some (.error .schema) := by
  rw [C130_schema]
  rintro ⟨j, a, q, c, k, ⟨-, h1⟩, h2, h3⟩
  rw [C100_text_roundtrip_partial f _ (by simp [named, Spec.JsonText.Holdable, Spec.JsonText.HoldableMembers])
      (by simp [named, Spec.JsonText.depth, Spec.JsonText.memberDepths])] at h1
  cases h1
  obtain ⟨url, hu, ⟨ms, e, ho, -⟩ | ⟨_, _, e, -⟩⟩ := h2
  · cases e
    have : url = "u" := by
      unfold Only at ho
      have := congrArg (List.map (·.2)) ho
      simp at this
      exact this.symm
    subst this
    cases hu
    exact h3 ⟨_, _, sampleToken, "r", rfl, ⟨[("run_id", "r")], [], rfl, by simp⟩, ⟨sampleToken_ok, .inl (by decide)⟩,
      ⟨[], [("token", _)], rfl, by simp⟩⟩
  · cases e

/-- A refusal is shown; so is that the token is not known. -/
example (f : JsonText.Floats) : fromApi f someUrls true "r" [.status 503, .status 200, .status 401] (JsonText.print refused) =
    some (.ok (.unsupported .organization "no")) :=
  (C130_refused ..).2 ⟨_, answered f _ (by simp [refused, Spec.JsonText.Holdable, Spec.JsonText.HoldableMembers])
      (by simp [refused, Spec.JsonText.depth, Spec.JsonText.memberDepths]),
    .inl ⟨_, rfl, ⟨_, by unfold Only; rfl, .inl rfl⟩, ⟨_, by unfold Only; rfl, rfl⟩⟩, by
      rintro ⟨a, q, c, k, url, -, ⟨ms, e, ho, -⟩ | ⟨_, _, e, -⟩⟩
      · cases e; unfold Only at ho; simp at ho
      · cases e⟩
example (f : JsonText.Floats) (text : List JsonText.Byte) : fromApi f someUrls true "r" [.status 429, .status 401, .status 200] text =
    some (.error .unauthenticated) :=
  (C130_told ..).1.2 ⟨[.status 429], [.status 200], rfl, by simp [Reply.Retried], by decide, .inl (by simp [Reply.Retried])⟩

end Abq.Props
