import Verif.Spec.Config

namespace Abq.Config
open Abq.Spec Abq.Hosted

theorem infer_iff (e : Env) (r : String) : inferredRunId e = some r ↔ CiRunId e r := by
  obtain ⟨a, c, b1, b2, b3, b4⟩ := e
  unfold inferredRunId CiRunId InCi FirstOf
  constructor
  · intro h
    cases a with
    | some x => simp at h
    | none =>
      cases c with
      | none => simp at h
      | some c =>
        by_cases hc : c = "false"
        · subst hc; simp at h
        · simp [hc] at h
          refine ⟨rfl, ⟨c, rfl, hc⟩, ?_⟩
          cases b1 with
          | some x => exact ⟨[], _, by simp at h; rw [h]; rfl, by simp⟩
          | none =>
            cases b2 with
            | some x => exact ⟨[none], _, by simp at h; rw [h]; rfl, by simp⟩
            | none =>
              cases b3 with
              | some x => exact ⟨[none, none], _, by simp at h; rw [h]; rfl, by simp⟩
              | none =>
                cases b4 with
                | some x => exact ⟨[none, none, none], _, by simp at h; rw [h]; rfl, by simp⟩
                | none => simp at h
  · rintro ⟨ha, ⟨c', hc, hne⟩, pre, post, hl, hn⟩
    simp only at ha hc hl
    subst ha hc
    simp only [Option.isSome_none, Option.getD_some, Bool.false_or, beq_iff_eq, hne, if_false]
    match pre, hl, hn with
    | [], hl, _ => simp at hl; simp [hl.1]
    | [x], hl, hn => simp at hl hn; simp [hl.1, hl.2.1, hn]
    | [x, y], hl, hn => simp at hl hn; simp [hl.1, hl.2.1, hl.2.2.1, hn]
    | [x, y, z], hl, hn => simp at hl hn; simp [hl.1, hl.2.1, hl.2.2.1, hl.2.2.2.1, hn]
    | x :: y :: z :: u :: l, hl, _ => have := congrArg List.length hl; simp at this

theorem given_iff (w : World) (o : Option String) (r : String) :
    o.or (inferredRunId w.env) = some r ↔ GivenRunId w o r := by
  unfold GivenRunId
  cases o with
  | some x => simp
  | none => simp [infer_iff]

theorem given_none (w : World) (o : Option String) :
    o.or (inferredRunId w.env) = none ↔ ∀ r, ¬ GivenRunId w o r := by
  constructor
  · intro h r hr; rw [← given_iff, h] at hr; cases hr
  · intro h
    cases e : o.or (inferredRunId w.env) with
    | none => rfl
    | some r => exact absurd ((given_iff w o r).mp e) (h r)

theorem token_iff (w : World) (o : Option String) (t : String) :
    accessTokenOf w o = some t ↔ TokenInUse w o t := by
  unfold accessTokenOf TokenInUse
  cases o <;> simp

theorem token_none (w : World) (o : Option String) :
    accessTokenOf w o = none ↔ ∀ t, ¬ TokenInUse w o t := by
  constructor
  · intro h r hr; rw [← token_iff, h] at hr; cases hr
  · intro h
    cases e : accessTokenOf w o with
    | none => rfl
    | some r => exact absurd ((token_iff w o r).mp e) (h r)

theorem readOpt_iff (f : Option (Option (List Nat))) (b : Option (List Nat)) : readOpt f = .ok b ↔ FileIs f b := by
  unfold readOpt FileIs
  match f with
  | none => simp [eq_comm]
  | some none => simp
  | some (some x) => simp [eq_comm]

theorem ofHosted_kind (c : QueueConfig) : (ApiConfig.ofHosted c).kind = kindIn c := by cases c <;> rfl

theorem all_certOk (tls : Tls) (cert : Option (List Nat)) :
    cert.all tls.certOk = true ↔ ∀ b, cert = some b → tls.certOk b = true := by
  cases cert <;> simp

/-- Resolving, validating and connecting, for a configuration from the command line. -/
theorem connect_cli (tls : Tls) (addr : Option String) (token cert key : Option (List Nat)) (given : Bool)
    (c : Connection) :
    (validateLocation (resolveFromCli addr key token cert).location given = .ok () ∧
      findOrCreate tls (resolveFromCli addr key token cert).location token cert = .ok c) ↔
    Connects tls addr token cert key (given = true) .commandLine c := by
  unfold Connects findOrCreate
  simp only [resolveFromCli]
  rw [← all_certOk]
  obtain ⟨q, t, ce⟩ := c
  cases hc : cert.all tls.certOk with
  | false => simp
  | true =>
    simp only [Bool.not_true, Bool.false_eq_true, if_false, true_and]
    cases addr with
    | some a =>
      simp only [validateLocation, Location.isRemote, Bool.not_true, Bool.and_false, Bool.false_eq_true, if_false,
        true_and, Except.ok.injEq, Connection.mk.injEq]
      grind
    | none =>
      cases given with
      | true => simp [validateLocation, Location.isRemote]
      | false =>
        simp only [validateLocation, Bool.false_and, Bool.false_eq_true, if_false, not_false_eq_true,
          true_and]
        match cert, key with
        | none, none => simp only [Except.ok.injEq, Connection.mk.injEq]; grind
        | some x, none => simp
        | none, some y => simp
        | some x, some y =>
          simp only []
          cases hp : tls.pairOk x y with
          | false => simp [hp]
          | true => simp only [if_true, Except.ok.injEq, Connection.mk.injEq]; grind

/-- The same for a configuration from the API. -/
theorem connect_api (tls : Tls) (ans : QueueConfig) (addr : Option String) (token cert key : Option (List Nat))
    (given : Bool) (c : Connection) :
    (validateLocation (resolveWithApi (.ofHosted ans)).location given = .ok () ∧
      findOrCreate tls (resolveWithApi (.ofHosted ans)).location (resolveWithApi (.ofHosted ans)).token
        (resolveWithApi (.ofHosted ans)).cert = .ok c) ↔
    Connects tls addr token cert key (given = true) (.api ans) c := by
  cases ans with
  | unsupported k u => simp [ApiConfig.ofHosted, resolveWithApi, validateLocation, Connects]
  | success ad r tok ce k =>
    simp only [ApiConfig.ofHosted, resolveWithApi, validateLocation, Location.isRemote, Bool.not_true, Bool.and_false,
      Bool.false_eq_true, if_false, true_and, Connects, findOrCreate]
    rw [← all_certOk]
    show (if (!Option.all tls.certOk ce) = true then Except.error Err.badTls
      else Except.ok { queue := Queue.remote ad, token := some tok, cert := ce }) = Except.ok c ↔ _
    by_cases hc : Option.all tls.certOk ce = true
    · simp only [hc, Bool.not_true, Bool.false_eq_true, if_false, Except.ok.injEq, and_true, eq_comm]
    · simp [hc]

/-- What the model takes from the API, before it is turned into `ApiConfig`. -/
def hostedOf (w : World) (token : Option String) (runId : String) : Except Err (Option QueueConfig) :=
  match token with
  | none => .ok none
  | some t =>
    match w.api t runId with
    | .error e => .error (.api e)
    | .ok c => .ok (some c)

theorem apiConfigOf_ok (w : World) (token : Option String) (runId : String) (api : Option ApiConfig) :
    apiConfigOf w token runId = .ok api ↔ ∃ q, hostedOf w token runId = .ok q ∧ api = q.map .ofHosted := by
  unfold apiConfigOf hostedOf
  cases token with
  | none => simp [eq_comm]
  | some t => cases h : w.api t runId <;> simp [h, eq_comm]

/-- The source that is used. -/
def sourceOf (q : Option QueueConfig) (given : Bool) : Source :=
  match q with
  | none => .commandLine
  | some ans => if kindIn ans = .organization ∨ given = true then .api ans else .commandLine

theorem chosen_iff (w : World) (tok : Option String) (localMode given : Bool) (runId : String) (source : Source) :
    Chosen w tok (localMode = true) (given = true) runId source ↔
      (∃ q, hostedOf w (if localMode then none else accessTokenOf w tok) runId = .ok q ∧ source = sourceOf q given) ∨
      (localMode = true ∧ source = .commandLine) := by
  cases localMode with
  | true =>
    cases source with
    | api b => simp [Chosen, hostedOf, sourceOf]
    | commandLine => simp [Chosen]
  | false =>
    simp only [Bool.false_eq_true, if_false, false_and, or_false]
    cases ht : accessTokenOf w tok with
    | none =>
      have := (token_none w tok).mp ht
      cases source <;> simp [Chosen, this, hostedOf, sourceOf]
    | some t =>
      have htu := (token_iff w tok t).mp ht
      have huniq : ∀ t', TokenInUse w tok t' ↔ t' = t := by
        intro t'
        rw [← token_iff, ht, Option.some.injEq, eq_comm]
      cases ha : w.api t runId with
      | error e => cases source <;> simp [Chosen, huniq, hostedOf, ha]
      | ok ans =>
        have hk : kindIn ans = .personal ↔ ¬ kindIn ans = .organization := by
          cases kindIn ans <;> simp
        cases source with
        | api b =>
          simp only [Chosen, huniq, hostedOf, ha, Bool.false_eq_true, not_false_eq_true, true_and, Except.ok.injEq,
            exists_eq_left, exists_eq_left', sourceOf]
          by_cases hc : kindIn ans = .organization ∨ given = true
          · simp only [hc, if_true, Source.api.injEq]
            constructor
            · rintro ⟨rfl, _⟩; rfl
            · rintro rfl; exact ⟨rfl, hc⟩
          · simp only [hc, if_false, reduceCtorEq, iff_false]
            rintro ⟨rfl, h⟩; exact hc h
        | commandLine =>
          simp only [Chosen, huniq, hostedOf, ha, Bool.false_eq_true, false_or, Except.ok.injEq,
            exists_eq_left, exists_eq_left', sourceOf, hk]
          by_cases hc : kindIn ans = .organization ∨ given = true
          · simp only [hc, if_true, reduceCtorEq, iff_false]
            rintro (h | ⟨t', x, rfl, hx, h1, h2⟩)
            · exact h t rfl
            · cases ha.symm.trans hx
              cases hc with
              | inl h => rw [h] at h1; cases h1
              | inr h => exact h2 h
          · simp only [hc, if_false, iff_true]
            exact .inr ⟨t, ans, rfl, ha, hk.mpr fun h => hc (.inl h), fun h => hc (.inr h)⟩

/-- Resolving, validating and connecting, for what was taken from the API. -/
theorem connect_iff (tls : Tls) (q : Option QueueConfig) (addr : Option String) (token cert key : Option (List Nat))
    (given : Bool) (c : Connection) :
    (validateLocation (resolve token addr cert key (q.map .ofHosted) given).location given = .ok () ∧
      findOrCreate tls (resolve token addr cert key (q.map .ofHosted) given).location
        (resolve token addr cert key (q.map .ofHosted) given).token
        (resolve token addr cert key (q.map .ofHosted) given).cert = .ok c) ↔
    Connects tls addr token cert key (given = true) (sourceOf q given) c := by
  cases q with
  | none => exact connect_cli tls addr token cert key given c
  | some ans =>
    have e : resolve token addr cert key ((some ans).map .ofHosted) given =
        if kindIn ans = .organization ∨ given = true then resolveWithApi (.ofHosted ans)
        else resolveFromCli addr key token cert := by
      simp only [resolve, Option.map_some, ofHosted_kind]
      cases hk : kindIn ans <;> simp
    rw [e]
    unfold sourceOf
    by_cases hc : kindIn ans = .organization ∨ given = true
    · simp only [hc, if_true]; exact connect_api tls ans addr token cert key given c
    · simp only [hc, if_false]; exact connect_cli tls addr token cert key given c

theorem mode_iff (q : Option QueueConfig) (addr : Option String) (token cert key : Option (List Nat)) (given : Bool) :
    modeOf (resolve token addr cert key (q.map .ofHosted) given).kind = .readonly ↔ ReadonlyFor (sourceOf q given) := by
  cases q with
  | none => simp [resolve, resolveFromCli, modeOf, sourceOf, ReadonlyFor]
  | some ans =>
    simp only [resolve, Option.map_some, ofHosted_kind, sourceOf]
    cases ans with
    | success a r t ce k => cases k <;> cases given <;>
        simp [kindIn, ApiConfig.ofHosted, resolveWithApi, resolveFromCli, modeOf, ReadonlyFor]
    | unsupported k u => cases k <;> cases given <;>
        simp [kindIn, ApiConfig.ofHosted, resolveWithApi, resolveFromCli, modeOf, ReadonlyFor]

/-- The queue connected to is remote exactly if the location is. -/
theorem remote_iff (tls : Tls) (l : Location) (t ce : Option (List Nat)) (c : Connection)
    (h : findOrCreate tls l t ce = .ok c) : l.isRemote = true ↔ ∃ x, c.queue = .remote x := by
  unfold findOrCreate at h
  split at h
  · simp at h
  · cases l with
    | remote a => simp at h; subst h; simp [Location.isRemote]
    | ephemeral k =>
      simp only [Location.isRemote, Bool.false_eq_true, false_iff, not_exists]
      intro x hx
      match ce, k, h with
      | some a, some b, h =>
        simp only [] at h
        split at h
        · simp at h; subst h; simp at hx
        · simp at h
      | none, none, h => simp at h; subst h; simp at hx
      | some _, none, h => simp at h
      | none, some _, h => simp at h
    | unsupported m => simp at h

end Abq.Config
