import Verif.Proof.Hosted

/-!
# Requests to the hosted API (C68), and what is taken from its answer (C69)
-/

namespace Abq.Props
open Abq.Hosted

/-- **C68.** Against every server and network: as long as the request goes on, every reply so far was a server error or a
rate limit, and there were fewer than six. If it returned, it returned the last reply it got; all replies before it were
server errors or rate limits, and the last one is not, unless it is the sixth. -/
theorem C68_retries (rs : List Reply) :
    ((({} : Sending).run rs).result = none → rs.length < 6 ∧ ∀ r ∈ rs, r.Retried) ∧
    (∀ r, (({} : Sending).run rs).result = some r →
      ∃ pre post, rs = pre ++ r :: post ∧ (({} : Sending).run rs).lastAttempt = pre.length + 1 ∧
        (∀ x ∈ pre, x.Retried) ∧ (¬ r.Retried ∨ pre.length + 1 = 6)) := by
  have h := SInv.run rs
  refine ⟨fun hn => ⟨(h.sleeping hn).2.1, (h.sleeping hn).2.2.1⟩, fun r hr => ?_⟩
  obtain ⟨pre, post, h1, h2, h3, -, h5, -⟩ := h.finished r hr
  exact ⟨pre, post, h1, h3, h2, h5⟩

/-- **C68.** At most six requests are sent, and the request ends with the sixth reply at the latest. -/
theorem C68_at_most_six (rs : List Reply) :
    (({} : Sending).run rs).lastAttempt ≤ 6 ∧ (6 ≤ rs.length → (({} : Sending).run rs).result ≠ none) := by
  have h := SInv.run rs
  refine ⟨?_, ?_⟩
  · cases hr : (({} : Sending).run rs).result with
    | none => have := h.sleeping hr; have h6 : maxAttempts = 6 := rfl; omega
    | some r =>
      obtain ⟨pre, _, _, _, h3, h4, _⟩ := h.finished r hr
      have h6 : maxAttempts = 6 := rfl
      omega
  · intro hl hn
    have h6 : maxAttempts = 6 := rfl
    have := (h.sleeping hn).2.1
    omega

/-- **C68.** The delays between requests are 5, 10, 20, 40 and 80 seconds, as many as there were retries: 155 seconds in all at
most. A transport error is never retried, so it adds none. -/
theorem C68_delays (rs : List Reply) :
    (({} : Sending).run rs).slept = [5, 10, 20, 40, 80].take (({} : Sending).run rs).slept.length ∧
    (({} : Sending).run rs).slept.sum ≤ 155 ∧
    (∀ r, (({} : Sending).run rs).result = some r →
      (({} : Sending).run rs).slept.length + 1 = (({} : Sending).run rs).lastAttempt) := by
  have h := SInv.run rs
  have key : ∀ n, n ≤ 5 → ∀ l : List Nat, l = (List.range n).map (fun i => initialDecay * decayMul ^ i) →
      l = [5, 10, 20, 40, 80].take l.length ∧ l.sum ≤ 155 := by
    intro n hn l hl
    subst hl
    match n, hn with
    | 0, _ => decide
    | 1, _ => decide
    | 2, _ => decide
    | 3, _ => decide
    | 4, _ => decide
    | 5, _ => decide
  have h6 : maxAttempts = 6 := rfl
  cases hr : (({} : Sending).run rs).result with
  | none =>
    obtain ⟨-, h2, -, -, h5⟩ := h.sleeping hr
    obtain ⟨k1, k2⟩ := key _ (by omega) _ h5
    exact ⟨k1, k2, fun r h => by cases h⟩
  | some r =>
    obtain ⟨pre, _, _, _, h3, h4, _, h5⟩ := h.finished r hr
    obtain ⟨k1, k2⟩ := key _ (by omega) _ h5
    refine ⟨k1, k2, fun _ _ => ?_⟩
    rw [h5, h3]; simp

/-- Two server errors, then success: three requests, 15 seconds; and six rate limits. -/
example : ({} : Sending).run [.status 503, .status 429, .status 200] = ⟨3, 20, [5, 10], some (.status 200)⟩ := by decide
example : ({} : Sending).run (List.replicate 6 (.status 429)) = ⟨6, 160, [5, 10, 20, 40, 80], some (.status 429)⟩ := by decide
example : ({} : Sending).run [.status 500, .transport] = ⟨2, 10, [5], some .transport⟩ := by decide

theorem queryGet_iff (query : List (String × String)) (key v : String) :
    queryGet query key = some v ↔ QueryValue query key v := by
  unfold queryGet QueryValue
  rw [Option.map_eq_some_iff]
  constructor
  · rintro ⟨⟨k, x⟩, hf, rfl⟩
    rw [List.find?_eq_some_iff_append] at hf
    obtain ⟨hk, as, bs, e, hn⟩ := hf
    simp only [beq_iff_eq] at hk
    subst hk
    refine ⟨bs.reverse, as.reverse, ?_, ?_⟩
    · have := congrArg List.reverse e
      simpa using this
    · intro p hp
      have := hn p (by simpa using hp)
      simpa using this
  · rintro ⟨pre, post, rfl, hn⟩
    refine ⟨(key, v), ?_, rfl⟩
    rw [List.find?_eq_some_iff_append]
    refine ⟨by simp, post.reverse, pre.reverse, by simp, ?_⟩
    intro a ha
    have := hn a (by simpa using ha)
    simpa using this

/-- **C69.** A queue is taken from an answer of the API exactly if the answer names it for the run asked for: the URL resolves
to one address, and its query has a well-formed token and this very run id; and then the address, token and certificate are
those of the answer. -/
theorem C69_answer (runId : String) (b : Body) (addr r : String) (token : List Nat) (cert : Option (List Nat))
    (kind : TokenKind) :
    fromBody runId b = .ok (.success addr r token cert kind) ↔
      ∃ query t, b = .success (some [addr]) query cert kind ∧ r = runId ∧ QueryValue query "run_id" runId ∧
        QueryValue query "token" t ∧ userToken t = some token := by
  cases b with
  | unsupported k u => simp [fromBody]
  | success addrs query c k =>
    simp only [← queryGet_iff, Body.success.injEq]
    constructor
    · match addrs with
      | none => intro h; cases h
      | some [] => intro h; cases h
      | some (_ :: _ :: _) => intro h; cases h
      | some [x] =>
        intro h
        simp only [fromBody] at h
        split at h
        · cases h
        · rename_i t ht
          split at h
          · cases h
          · rename_i tok htok
            split at h
            · cases h
            · rename_i r' hr
              split at h
              · cases h
              · rename_i hne
                have hne : r' = runId := by simpa using hne
                subst hne
                cases h
                exact ⟨query, t, ⟨rfl, rfl, rfl, rfl⟩, rfl, hr, ht, htok⟩
    · rintro ⟨q, t, ⟨rfl, rfl, rfl, rfl⟩, rfl, hr, ht, htok⟩
      simp [fromBody, ht, htok, hr]

/-- **C69.** The request as a whole: a queue is used only if the last reply is neither an error of the network, nor one of the
client or the server. -/
theorem C69_only_on_success (runId : String) (rs : List Reply) (body : Option Body) (q : QueueConfig)
    (h : fromApi runId rs body = some (.ok q)) :
    ∃ code b pre post, rs = pre ++ .status code :: post ∧ (∀ x ∈ pre, x.Retried) ∧ ¬ (400 ≤ code ∧ code < 600) ∧
      body = some b ∧ fromBody runId b = .ok q := by
  unfold fromApi at h
  split at h
  · cases h
  · cases h
  · rename_i code hr
    obtain ⟨pre, post, h1, -, h3, -⟩ := (C68_retries rs).2 _ hr
    split at h
    · cases h
    · rename_i hc
      split at h
      · cases h
      · rename_i b
        refine ⟨code, b, pre, post, h1, h3, ?_, rfl, ?_⟩
        · simpa using hc
        · simpa using h

def sampleBody (run : String) : Body :=
  .success (some ["1.2.3.4:80"]) [("run_id", run), ("token", "abqs_MD2QPKH2VZU2krvOa2mN54Q4qwzNxF")] none .organization

/-- An answer for the right run is used; one for another run is refused. -/
example : ∃ tok, fromApi "r" [.status 500, .status 200] (some (sampleBody "r")) =
    some (.ok (.success "1.2.3.4:80" "r" tok none .organization)) := ⟨_, rfl⟩
example : fromApi "r" [.status 200] (some (sampleBody "s")) = some (.error .runIdDiffers) := rfl

end Abq.Props
